import Verif.Base.Text
/-!
# Byte slices and panics

A Rust `str` is indexed by bytes; a slice whose end is inside a character panics.  `Run` is the result of a
computation that may panic.
-/
namespace Siphon

/-- The result of a call that may panic. -/
inductive Run (α : Type)
  | done (a : α)
  | panic
  deriving DecidableEq, Repr

/-- Sequencing: a panic ends the computation. -/
def Run.bind {α β : Type} (r : Run α) (f : α → Run β) : Run β :=
  match r with
  | .done a => f a
  | .panic => .panic

instance : Monad Run where
  pure := Run.done
  bind := Run.bind

@[simp] theorem Run.bind_done {α β : Type} (a : α) (f : α → Run β) : (Run.done a >>= f) = f a := rfl
@[simp] theorem Run.bind_panic {α β : Type} (f : α → Run β) : ((Run.panic : Run α) >>= f) = .panic := rfl
@[simp] theorem Run.pure_eq {α : Type} (a : α) : (pure a : Run α) = .done a := rfl

theorem Run.bind_eq_done {α β : Type} (r : Run α) (f : α → Run β) (b : β) :
    (r >>= f) = .done b ↔ ∃ a, r = .done a ∧ f a = .done b := by
  cases r <;> simp

/-- `(&s[..n], &s[n..])`; `none` is the panic when byte `n` is inside a character or past the end. -/
def splitAtByte : Nat → Str → Option (Str × Str)
  | 0, s => some ([], s)
  | _ + 1, [] => none
  | n + 1, c :: s =>
    if c.utf8Size ≤ n + 1 then (splitAtByte (n + 1 - c.utf8Size) s).map (fun p => (c :: p.1, p.2)) else none

theorem splitAtByte_iff (n : Nat) (s a b : Str) : splitAtByte n s = some (a, b) ↔ s = a ++ b ∧ utf8Len a = n := by
  induction s generalizing n a with
  | nil =>
    cases n with
    | zero =>
      simp only [splitAtByte, Option.some.injEq, Prod.mk.injEq]
      constructor
      · rintro ⟨rfl, rfl⟩; simp [utf8Len]
      · rintro ⟨h, _⟩
        obtain ⟨rfl, rfl⟩ := List.append_eq_nil_iff.1 h.symm
        simp
    | succ n =>
      simp only [splitAtByte, reduceCtorEq, false_iff, not_and]
      intro h
      obtain ⟨rfl, rfl⟩ := List.append_eq_nil_iff.1 h.symm
      simp [utf8Len]
  | cons c s ih =>
    cases n with
    | zero =>
      simp only [splitAtByte, Option.some.injEq, Prod.mk.injEq]
      constructor
      · rintro ⟨rfl, rfl⟩; simp [utf8Len]
      · rintro ⟨h, hl⟩
        cases a with
        | nil => exact ⟨rfl, h⟩
        | cons d a =>
          exfalso
          have := Char.utf8Size_pos d
          simp only [utf8Len, List.map_cons, List.sum_cons] at hl
          omega
    | succ n =>
      have hpos := Char.utf8Size_pos c
      simp only [splitAtByte]
      split
      · rename_i hle
        simp only [Option.map_eq_some_iff, Prod.mk.injEq, Prod.exists]
        constructor
        · rintro ⟨x, y, hxy, rfl, rfl⟩
          obtain ⟨rfl, hl⟩ := (ih _ _).1 hxy
          refine ⟨rfl, ?_⟩
          simp only [utf8Len, List.map_cons, List.sum_cons] at hl ⊢
          omega
        · rintro ⟨h, hl⟩
          cases a with
          | nil => simp [utf8Len] at hl
          | cons d a =>
            simp only [List.cons_append, List.cons.injEq] at h
            obtain ⟨rfl, h⟩ := h
            refine ⟨a, b, (ih _ _).2 ⟨h, ?_⟩, rfl, rfl⟩
            simp only [utf8Len, List.map_cons, List.sum_cons] at hl ⊢
            omega
      · rename_i hle
        simp only [reduceCtorEq, false_iff, not_and]
        intro h hl
        cases a with
        | nil => simp [utf8Len] at hl
        | cons d a =>
          simp only [List.cons_append, List.cons.injEq] at h
          obtain ⟨rfl, h⟩ := h
          simp only [utf8Len, List.map_cons, List.sum_cons] at hl
          omega

end Siphon
