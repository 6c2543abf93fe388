import Verif.Transport.SpecFraming

set_option linter.unusedSimpArgs false

/-!
# The Content-Length scanner agrees with the specification
-/

namespace Siphon.Transport

theorem isWsB_iff (b : UInt8) : isWsB b = true ↔ White b := by
  simp [isWsB, White, or_assoc]

/-! ## Trimming -/

theorem dropWhile_append_of_all {p : UInt8 → Bool} : ∀ (a s : Bytes), (∀ x ∈ a, p x = true) →
    (a ++ s).dropWhile p = s.dropWhile p
  | [], _, _ => rfl
  | x :: a, s, h => by
    simp only [List.cons_append, List.dropWhile_cons]
    rw [if_pos (h x (by simp))]
    exact dropWhile_append_of_all a s (fun y hy => h y (by simp [hy]))

theorem dropWhile_of_head {p : UInt8 → Bool} (v s : Bytes) (hne : v ≠ [])
    (h : ∀ x, v.head? = some x → p x = false) : (v ++ s).dropWhile p = v ++ s := by
  cases v with
  | nil => exact absurd rfl hne
  | cons x t =>
    have := h x rfl
    simp [List.dropWhile_cons, this]

theorem dropWhile_split (p : UInt8 → Bool) : ∀ s : Bytes, ∃ a, s = a ++ s.dropWhile p ∧
    (∀ x ∈ a, p x = true) ∧ ∀ x, (s.dropWhile p).head? = some x → p x = false
  | [] => ⟨[], by simp⟩
  | y :: s => by
    by_cases hy : p y = true
    · obtain ⟨a, h1, h2, h3⟩ := dropWhile_split p s
      refine ⟨y :: a, ?_, ?_, ?_⟩
      · simp only [List.dropWhile_cons, hy, if_true, List.cons_append]
        rw [← h1]
      · intro x hx
        rcases List.mem_cons.1 hx with rfl | hx
        · exact hy
        · exact h2 x hx
      · simpa only [List.dropWhile_cons, hy, if_true] using h3
    · refine ⟨[], ?_, by simp, ?_⟩
      · simp [List.dropWhile_cons, hy]
      · simp [List.dropWhile_cons, hy]

theorem stripped_iff (s v : Bytes) : Stripped s v ↔ trimB s = v := by
  constructor
  · rintro ⟨a, b, rfl, ha, hb, hh, hl⟩
    unfold trimB
    have ha' : ∀ x ∈ a, isWsB x = true := fun x hx => (isWsB_iff x).2 (ha x hx)
    have hb' : ∀ x ∈ b, isWsB x = true := fun x hx => (isWsB_iff x).2 (hb x hx)
    rw [List.append_assoc, dropWhile_append_of_all a _ ha']
    by_cases hv : v = []
    · subst hv
      have := dropWhile_append_of_all b [] hb'
      simp only [List.append_nil, List.nil_append] at this ⊢
      rw [this]; rfl
    · rw [dropWhile_of_head v b hv]
      · rw [List.reverse_append, dropWhile_append_of_all]
        · have := dropWhile_of_head (p := isWsB) v.reverse [] (by simpa using hv) (by
            intro x hx
            rw [List.head?_reverse] at hx
            have := hl x hx
            rw [← isWsB_iff] at this
            simpa using this)
          simp only [List.append_nil] at this
          rw [this, List.reverse_reverse]
        · intro x hx
          exact hb' x (by simpa using hx)
      · intro x hx
        have := hh x hx
        rw [← isWsB_iff] at this
        simpa using this
  · rintro rfl
    unfold trimB
    obtain ⟨a, h1, h2, h3⟩ := dropWhile_split isWsB s
    obtain ⟨b, h4, h5, h6⟩ := dropWhile_split isWsB (s.dropWhile isWsB).reverse
    generalize hd : s.dropWhile isWsB = d at *
    generalize he : d.reverse.dropWhile isWsB = e at *
    have h7 : d = e.reverse ++ b.reverse := by
      have := congrArg List.reverse h4
      simpa using this
    refine ⟨a, b.reverse, ?_, ?_, ?_, ?_, ?_⟩
    · rw [List.append_assoc, ← h7]; exact h1
    · intro x hx; exact (isWsB_iff x).1 (h2 x hx)
    · intro x hx; exact (isWsB_iff x).1 (h5 x (by simpa using hx))
    · intro x hx hw
      have : d.head? = some x := by
        rw [h7, List.head?_append, hx]; rfl
      have := h3 x this
      rw [(isWsB_iff x).2 hw] at this; simp at this
    · intro x hx hw
      rw [List.getLast?_reverse] at hx
      have := h6 x hx
      rw [(isWsB_iff x).2 hw] at this; simp at this

theorem trimB_append_cr (s : Bytes) : trimB (s ++ [CR]) = trimB s := by
  obtain ⟨a, b, h1, h2, h3, h4, h5⟩ := (stripped_iff s (trimB s)).2 rfl
  refine (stripped_iff _ _).1 ⟨a, b ++ [CR], ?_, h2, ?_, h4, h5⟩
  · rw [← List.append_assoc, ← h1]
  · intro x hx
    rcases List.mem_append.1 hx with hx | hx
    · exact h3 x hx
    · rw [List.mem_singleton.1 hx]; simp [White]

/-! ## Lines -/

theorem splitB_ne_nil (c : UInt8) : ∀ s, splitB c s ≠ []
  | [] => by simp [splitB]
  | b :: s => by
    simp only [splitB]
    split
    · simp
    · split <;> simp

theorem splitB_not_mem (c : UInt8) : ∀ (s : Bytes), ∀ l ∈ splitB c s, c ∉ l
  | [], l, hl => by simp [splitB] at hl; subst hl; simp
  | b :: s, l, hl => by
    have ih := splitB_not_mem c s
    simp only [splitB] at hl
    split at hl
    · rcases List.mem_cons.1 hl with rfl | hl
      · simp
      · exact ih l hl
    · rename_i hb
      split at hl
      · rename_i h; exact absurd h (splitB_ne_nil c s)
      · rename_i l0 ls h
        rcases List.mem_cons.1 hl with rfl | hl
        · simp only [List.mem_cons, not_or]
          exact ⟨fun h => hb h.symm, ih l0 (by rw [h]; simp)⟩
        · exact ih l (by rw [h]; simp [hl])

theorem intercalate_cons₂ (c : UInt8) (l : Bytes) (ls : List Bytes) (h : ls ≠ []) :
    [c].intercalate (l :: ls) = l ++ c :: [c].intercalate ls := by
  cases ls with
  | nil => exact absurd rfl h
  | cons m ls => simp [List.intercalate, List.intersperse]

theorem splitB_join (c : UInt8) : ∀ s, [c].intercalate (splitB c s) = s
  | [] => by simp [splitB, List.intercalate]
  | b :: s => by
    have ih := splitB_join c s
    simp only [splitB]
    split
    · rename_i hb
      rw [intercalate_cons₂ _ _ _ (splitB_ne_nil c s), ih, hb]; rfl
    · split
      · rename_i h; exact absurd h (splitB_ne_nil c s)
      · rename_i l ls h
        rw [h] at ih
        by_cases hls : ls = []
        · subst hls
          simp [List.intercalate] at ih ⊢
          exact ih
        · rw [intercalate_cons₂ _ _ _ hls] at ih ⊢
          rw [List.cons_append, ih]

theorem splitB_of_not_mem (c : UInt8) : ∀ l : Bytes, c ∉ l → splitB c l = [l]
  | [], _ => rfl
  | b :: l, h => by
    simp only [List.mem_cons, not_or] at h
    simp only [splitB, if_neg (fun hb : b = c => h.1 hb.symm), splitB_of_not_mem c l h.2]

theorem splitB_append (c : UInt8) : ∀ (l s : Bytes), c ∉ l → splitB c (l ++ c :: s) = l :: splitB c s
  | [], s, _ => by simp [splitB]
  | b :: l, s, h => by
    simp only [List.mem_cons, not_or] at h
    simp only [List.cons_append, splitB, if_neg (fun hb : b = c => h.1 hb.symm),
      splitB_append c l s h.2]

theorem splitB_intercalate (c : UInt8) : ∀ ls : List Bytes, ls ≠ [] → (∀ x ∈ ls, c ∉ x) →
    splitB c ([c].intercalate ls) = ls
  | [], h, _ => absurd rfl h
  | [l], _, h => by
    simp only [List.intercalate, List.intersperse, List.flatten_cons, List.flatten_nil,
      List.append_nil]
    exact splitB_of_not_mem c l (h l (by simp))
  | l :: m :: ls, _, h => by
    rw [intercalate_cons₂ _ _ _ (by simp), splitB_append c l _ (h l (by simp)),
      splitB_intercalate c (m :: ls) (by simp) (fun x hx => h x (by simp [hx]))]

theorem hasLine_iff (head l : Bytes) : HasLine head l ↔ l ∈ splitB LF head := by
  constructor
  · rintro ⟨ls, h1, h2, h3, h4⟩
    rw [← h3, splitB_intercalate LF ls h1 h2]; exact h4
  · intro h
    exact ⟨_, splitB_ne_nil _ _, splitB_not_mem _ _, splitB_join _ _, h⟩

/-! ## Fields -/

theorem splitColon_iff : ∀ (l n v : Bytes),
    splitColon l = some (n, v) ↔ l = n ++ COLON :: v ∧ COLON ∉ n
  | [], n, v => by simp [splitColon]
  | b :: l, n, v => by
    simp only [splitColon]
    split
    · rename_i hb
      constructor
      · intro h
        cases h
        simp [hb]
      · rintro ⟨h1, h2⟩
        cases n with
        | nil => simp at h1; simp [h1.2]
        | cons x n => simp at h1 h2; exact absurd (h1.1 ▸ hb).symm h2.1
    · rename_i hb
      cases n with
      | nil =>
        simp only [Option.map_eq_some_iff, Prod.mk.injEq]
        constructor
        · rintro ⟨_, _, h, _⟩; simp at h
        · rintro ⟨h, _⟩; simp at h; exact absurd h.1 hb
      | cons x n =>
        have ih := splitColon_iff l n v
        simp only [Option.map_eq_some_iff, Prod.mk.injEq, List.cons.injEq, List.cons_append,
          List.mem_cons, not_or]
        constructor
        · rintro ⟨⟨n', v'⟩, h1, ⟨h2, h3⟩, h4⟩
          subst h3; subst h4
          have := ih.1 h1
          exact ⟨⟨h2, this.1⟩, fun h => hb (h2.trans h.symm), this.2⟩
        · rintro ⟨⟨h1, h2⟩, _, h4⟩
          exact ⟨(n, v), ih.2 ⟨h2, h4⟩, ⟨h1, rfl⟩, rfl⟩

theorem eqNoCase_iff (a b : Bytes) : eqNoCaseB a b = true ↔ a.map lowerB = b.map lowerB := by
  unfold eqNoCaseB
  induction a generalizing b with
  | nil => cases b <;> simp
  | cons x a ih =>
    cases b with
    | nil => simp
    | cons y b =>
      have := ih b
      simp only [Bool.and_eq_true, beq_iff_eq, List.length_cons, Nat.add_right_cancel_iff,
        List.zip_cons_cons, List.all_cons, List.map_cons, List.cons.injEq] at this ⊢
      rw [← this]
      constructor
      · rintro ⟨h1, h2, h3⟩; exact ⟨h2, h1, h3⟩
      · rintro ⟨h2, h1, h3⟩; exact ⟨h1, h2, h3⟩

theorem lengthName_iff (n : Bytes) :
    LengthName n ↔ (eqNoCaseB n contentLengthName = true ∨ eqNoCaseB n compactName = true) := by
  simp only [eqNoCase_iff, LengthName]
  have h1 : contentLengthName.map lowerB =
      [99, 111, 110, 116, 101, 110, 116, 45, 108, 101, 110, 103, 116, 104] := by decide
  have h2 : compactName.map lowerB = [108] := by decide
  rw [h1, h2]

/-- The value text of a Content-Length line. -/
def valueOf (line : Bytes) : Option Bytes :=
  match splitColon (stripCr line) with
  | none => none
  | some (n, v) =>
    if !eqNoCaseB (trimB n) contentLengthName && !eqNoCaseB (trimB n) compactName then none
    else some (trimB v)

theorem getLast?_cr {l : Bytes} (h : l.getLast? = some CR) : l = l.dropLast ++ [CR] := by
  rw [List.getLast?_eq_some_iff] at h
  obtain ⟨t, rfl⟩ := h
  simp

theorem valueOf_iff (line v : Bytes) : valueOf line = some v ↔
    ∃ name name' value, line = name ++ COLON :: value ∧ COLON ∉ name ∧
      Stripped name name' ∧ LengthName name' ∧ Stripped value v := by
  have key : ∀ l : Bytes, (match splitColon l with
      | none => none
      | some (n, v) =>
        if !eqNoCaseB (trimB n) contentLengthName && !eqNoCaseB (trimB n) compactName then none
        else some (trimB v)) = some v ↔
      ∃ name name' value, l = name ++ COLON :: value ∧ COLON ∉ name ∧
        Stripped name name' ∧ LengthName name' ∧ Stripped value v := by
    intro l
    cases h : splitColon l with
    | none =>
      simp only [reduceCtorEq, false_iff]
      rintro ⟨n, _, x, h1, h2, _⟩
      rw [(splitColon_iff l n x).2 ⟨h1, h2⟩] at h
      simp at h
    | some p =>
      obtain ⟨n, x⟩ := p
      have hs := (splitColon_iff l n x).1 h
      simp only []
      constructor
      · intro h'
        split at h'
        · simp at h'
        · rename_i hc
          refine ⟨n, trimB n, x, hs.1, hs.2, (stripped_iff _ _).2 rfl, ?_, ?_⟩
          · rw [lengthName_iff]
            simp only [Bool.and_eq_true, Bool.not_eq_true', not_and, Bool.not_eq_false] at hc
            by_cases h0 : eqNoCaseB (trimB n) contentLengthName = true
            · exact Or.inl h0
            · exact Or.inr (hc (by simpa using h0))
          · exact (stripped_iff _ _).2 (by simpa using h')
      · rintro ⟨n', n'', x', h1, h2, h3, h4, h5⟩
        have hh := (splitColon_iff l n' x').2 ⟨h1, h2⟩
        rw [h] at hh
        simp only [Option.some.injEq, Prod.mk.injEq] at hh
        obtain ⟨rfl, rfl⟩ := hh
        rw [(stripped_iff _ _).1 h3]
        rw [if_neg, (stripped_iff _ _).1 h5]
        rw [lengthName_iff] at h4
        rcases h4 with h4 | h4 <;> simp [h4]
  unfold valueOf
  by_cases hl : line.getLast? = some CR
  · have hs : stripCr line = line.dropLast := by rw [stripCr, if_pos hl]
    have hl := getLast?_cr hl
    rw [hs, key]
    constructor
    · rintro ⟨n, n', x, h1, h2, h3, h4, h5⟩
      refine ⟨n, n', x ++ [CR], ?_, h2, h3, h4, ?_⟩
      · rw [hl, h1]; simp
      · rw [stripped_iff, trimB_append_cr, ← stripped_iff]; exact h5
    · rintro ⟨n, n', x, h1, h2, h3, h4, h5⟩
      have hx : ∃ y, x = y ++ [CR] := by
        have hlast : line.getLast? = some CR := by rw [hl]; simp
        rw [h1] at hlast
        rw [List.getLast?_append] at hlast
        rw [List.getLast?_cons] at hlast
        cases hx : x.getLast? with
        | none =>
          rw [hx] at hlast
          simp at hlast
          exact absurd hlast (by decide)
        | some z =>
          rw [hx] at hlast
          simp at hlast
          subst hlast
          exact ⟨_, getLast?_cr hx⟩
      obtain ⟨y, rfl⟩ := hx
      refine ⟨n, n', y, ?_, h2, h3, h4, ?_⟩
      · have : n ++ COLON :: (y ++ [CR]) = (n ++ COLON :: y) ++ [CR] := by simp
        rw [h1, this, List.dropLast_concat]
      · rw [stripped_iff, trimB_append_cr, ← stripped_iff] at h5; exact h5
  · have hs : stripCr line = line := by rw [stripCr, if_neg hl]
    rw [hs]
    exact key line

theorem lengthField_iff (head v : Bytes) :
    LengthField head v ↔ v ∈ (splitB LF head).filterMap valueOf := by
  simp only [List.mem_filterMap, valueOf_iff, LengthField, hasLine_iff]
  constructor
  · rintro ⟨n, n', x, h1, h2, h3, h4, h5⟩
    exact ⟨_, h1, n, n', x, rfl, h2, h3, h4, h5⟩
  · rintro ⟨_, h1, n, n', x, rfl, h2, h3, h4, h5⟩
    exact ⟨n, n', x, h1, h2, h3, h4, h5⟩

/-! ## Numerals -/

theorem digit_val (b : UInt8) (h : 48 ≤ b.toNat) : (b - 48).toNat = b.toNat - 48 := by
  rw [UInt8.toNat_sub_of_le]
  · rfl
  · rw [UInt8.le_iff_toNat_le]; exact h

theorem isDigitB_iff (b : UInt8) : isDigitB b = true ↔ 48 ≤ b.toNat ∧ b.toNat ≤ 57 := by
  simp [isDigitB, UInt8.le_iff_toNat_le]

def digitFold (acc : Nat) (v : Bytes) : Nat :=
  v.foldl (fun acc b => acc * 10 + (b.toNat - 48)) acc

theorem le_digitFold : ∀ (v : Bytes) (acc : Nat), acc ≤ digitFold acc v
  | [], acc => Nat.le_refl _
  | b :: v, acc => by
    have := le_digitFold v (acc * 10 + (b.toNat - 48))
    simp only [digitFold, List.foldl_cons] at this ⊢
    omega

theorem parseDigits_iff : ∀ (v : Bytes) (acc n : Nat), acc < 2 ^ 64 →
    (parseDigits acc v = .ok n ↔
      (∀ b ∈ v, 48 ≤ b.toNat ∧ b.toNat ≤ 57) ∧ digitFold acc v = n ∧ n < 2 ^ 64)
  | [], acc, n, h => by
    simp only [parseDigits, digitFold, List.foldl_nil, Except.ok.injEq, List.not_mem_nil,
      false_imp_iff, implies_true, true_and]
    constructor
    · rintro rfl; exact ⟨rfl, h⟩
    · exact And.left
  | b :: v, acc, n, h => by
    simp only [parseDigits]
    by_cases hd : isDigitB b = true
    · have hb := (isDigitB_iff b).1 hd
      simp only [hd, Bool.not_true, Bool.false_eq_true, if_false]
      rw [digit_val b hb.1]
      have hle := le_digitFold v (acc * 10 + (b.toNat - 48))
      have hf : digitFold acc (b :: v) = digitFold (acc * 10 + (b.toNat - 48)) v := rfl
      split
      · simp only [reduceCtorEq, false_iff]
        rintro ⟨_, h2, h3⟩
        omega
      · split
        · simp only [reduceCtorEq, false_iff]
          rintro ⟨_, h2, h3⟩
          omega
        · rw [parseDigits_iff v _ n (by omega), hf]
          constructor
          · rintro ⟨h1, h2⟩
            refine ⟨?_, h2⟩
            intro x hx
            rcases List.mem_cons.1 hx with rfl | hx
            · exact hb
            · exact h1 x hx
          · rintro ⟨h1, h2⟩
            exact ⟨fun x hx => h1 x (by simp [hx]), h2⟩
    · simp only [hd, Bool.not_false, if_true, reduceCtorEq, false_iff]
      rintro ⟨h1, _⟩
      exact hd ((isDigitB_iff b).2 (h1 b (by simp)))

theorem parseUsize_iff (v : Bytes) (n : Nat) :
    parseUsize v = .ok n ↔ Numeral v n ∧ n < 2 ^ 64 := by
  unfold parseUsize Numeral
  split
  · rename_i h; simp [h]
  · rename_i h
    rw [parseDigits_iff v 0 n (by omega)]
    simp only [digitFold, h, ne_eq, not_false_eq_true, true_and, and_assoc]

/-! ## The scanner -/

def loopV (found : Option Nat) : List Bytes → Except FrameErr (Option Nat)
  | [] => .ok found
  | v :: vs =>
    match parseUsize v with
    | .error e => .error e
    | .ok k =>
      match found with
      | some old => if old ≠ k then .error .conflicting else loopV (some old) vs
      | none => loopV (some k) vs

theorem lengthLoop_eq : ∀ (ls : List Bytes) (found : Option Nat),
    lengthLoop found ls = loopV found (ls.filterMap valueOf)
  | [], _ => rfl
  | l :: ls, found => by
    have ih := lengthLoop_eq ls
    simp only [lengthLoop, List.filterMap_cons, valueOf]
    cases splitColon (stripCr l) with
    | none => exact ih found
    | some p =>
      obtain ⟨n, v⟩ := p
      simp only []
      by_cases hc : (!eqNoCaseB (trimB n) contentLengthName && !eqNoCaseB (trimB n) compactName) = true
      · simp only [hc, if_true]; exact ih found
      · simp only [hc, Bool.false_eq_true, if_false, loopV]
        cases parseUsize (trimB v) with
        | error e => rfl
        | ok k =>
          cases found with
          | none => exact ih _
          | some old =>
            simp only []
            split
            · rfl
            · exact ih _

theorem loopV_some : ∀ (vs : List Bytes) (old : Nat) (r : Option Nat),
    loopV (some old) vs = .ok r ↔ r = some old ∧ ∀ v ∈ vs, parseUsize v = .ok old
  | [], old, r => by simp [loopV, eq_comm]
  | v :: vs, old, r => by
    simp only [loopV]
    cases h : parseUsize v with
    | error e =>
      simp [h]
    | ok k =>
      simp only []
      by_cases hk : old = k
      · subst hk
        simp [h, loopV_some vs old r]
      · simp only [ne_eq, hk, not_false_eq_true, if_true, reduceCtorEq, List.mem_cons, forall_eq_or_imp,
          h, Except.ok.injEq, false_iff, not_and]
        intro _ h'
        exact absurd h'.symm hk

theorem loopV_none (vs : List Bytes) (r : Option Nat) :
    loopV none vs = .ok r ↔ (vs = [] ∧ r = none) ∨
      ∃ k, r = some k ∧ vs ≠ [] ∧ ∀ v ∈ vs, parseUsize v = .ok k := by
  cases vs with
  | nil => simp [loopV, eq_comm]
  | cons v vs =>
    simp only [loopV]
    cases h : parseUsize v with
    | error e => simp [h]
    | ok k =>
      simp only [loopV_some]
      constructor
      · rintro ⟨rfl, h2⟩
        refine Or.inr ⟨k, rfl, by simp, ?_⟩
        intro x hx
        rcases List.mem_cons.1 hx with rfl | hx
        · exact h
        · exact h2 x hx
      · rintro (⟨h1, _⟩ | ⟨k', rfl, _, h2⟩)
        · simp at h1
        · have := h2 v (by simp)
          rw [h] at this
          simp only [Except.ok.injEq] at this
          subst this
          exact ⟨rfl, fun x hx => h2 x (by simp [hx])⟩

theorem parseContentLength_some (head : Bytes) (n : Nat) :
    parseContentLength head = .ok (some n) ↔ Declares head n ∧ n < 2 ^ 64 := by
  unfold parseContentLength
  rw [lengthLoop_eq, loopV_none]
  simp only [Declares, lengthField_iff]
  generalize (splitB LF head).filterMap valueOf = vs
  constructor
  · rintro (⟨_, h⟩ | ⟨k, h1, h2, h3⟩)
    · simp at h
    · simp only [Option.some.injEq] at h1
      subst h1
      cases vs with
      | nil => exact absurd rfl h2
      | cons v vs =>
        exact ⟨⟨⟨v, by simp⟩, fun x hx => ((parseUsize_iff x n).1 (h3 x hx)).1⟩,
          ((parseUsize_iff v n).1 (h3 v (by simp))).2⟩
  · rintro ⟨⟨⟨v, hv⟩, h2⟩, h3⟩
    refine Or.inr ⟨n, rfl, List.ne_nil_of_mem hv, ?_⟩
    intro x hx
    exact (parseUsize_iff x n).2 ⟨h2 x hx, h3⟩

theorem parseContentLength_none (head : Bytes) :
    parseContentLength head = .ok none ↔ ¬ ∃ v, LengthField head v := by
  unfold parseContentLength
  rw [lengthLoop_eq, loopV_none]
  simp only [lengthField_iff]
  generalize (splitB LF head).filterMap valueOf = vs
  constructor
  · rintro (⟨h, _⟩ | ⟨k, h1, _⟩)
    · subst h; simp
    · simp at h1
  · intro h
    refine Or.inl ⟨?_, by trivial⟩
    cases vs with
    | nil => rfl
    | cons v vs => exact absurd ⟨v, by simp⟩ h

end Siphon.Transport
