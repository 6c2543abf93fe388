import Verif.Hep.Model
import Verif.Hep.Spec
import Verif.Base.PercentLemmas
import Verif.Core.HeadersProps
set_option linter.unusedSimpArgs false
set_option linter.unusedVariables false
/-! Lemmas on bytes, lines and names. -/
namespace Siphon.Hep
open TextSpec HdrSpec Spec

/-! ## UTF-8 -/

theorem accept_some {n : Nat} {bs : Bytes} {c : Char} (h : acceptChar n bs = some c) : String.utf8EncodeChar c = bs := by
  unfold acceptChar at h
  split at h
  · rename_i hh; cases h; exact hh.2
  · cases h

theorem take_some {bs rest : Bytes} {c : Char} (h : takeChar bs = some (c, rest)) : bs = String.utf8EncodeChar c ++ rest := by
  unfold takeChar at h
  split at h
  · cases h
  · rename_i a t
    split at h
    · rename_i ha
      simp only [Option.some.injEq, Prod.mk.injEq] at h
      obtain ⟨rfl, rfl⟩ := h
      have e : (Char.ofNat a.toNat).toNat = a.toNat := by
        have hv : a.toNat.isValidChar := by unfold Nat.isValidChar; omega
        unfold Char.ofNat
        rw [dif_pos hv]
        rfl
      have e' : (Char.ofNat a.toNat).val.toNat = a.toNat := e
      unfold String.utf8EncodeChar
      simp only [e']
      rw [if_pos (by omega)]
      simp
    · split at h
      · cases t with
        | nil => cases h
        | cons b t =>
          simp only [Option.map_eq_some_iff, Prod.mk.injEq] at h
          obtain ⟨x, hx, rfl, rfl⟩ := h
          rw [accept_some hx]; rfl
      · split at h
        · rcases t with _ | ⟨b, _ | ⟨d, t⟩⟩
          · cases h
          · cases h
          · simp only [Option.map_eq_some_iff, Prod.mk.injEq] at h
            obtain ⟨x, hx, rfl, rfl⟩ := h
            rw [accept_some hx]; rfl
        · rcases t with _ | ⟨b, _ | ⟨d, _ | ⟨f, t⟩⟩⟩
          · cases h
          · cases h
          · cases h
          · simp only [Option.map_eq_some_iff, Prod.mk.injEq] at h
            obtain ⟨x, hx, rfl, rfl⟩ := h
            rw [accept_some hx]; rfl

theorem decodeGo_some : ∀ (f : Nat) (bs : Bytes) (s : Str), utf8DecodeGo f bs = some s → bs = utf8 s
  | _, [], s, h => by
    unfold utf8DecodeGo at h
    cases h; rfl
  | 0, a :: t, s, h => by cases h
  | f + 1, a :: t, s, h => by
    unfold utf8DecodeGo at h
    cases ht : takeChar (a :: t) with
    | none => rw [ht] at h; cases h
    | some p =>
      obtain ⟨c, rest⟩ := p
      rw [ht] at h
      simp only [Option.map_eq_some_iff] at h
      obtain ⟨s', h1, rfl⟩ := h
      rw [take_some ht, decodeGo_some f rest s' h1]
      rfl

theorem utf8Decode_iff (bs : Bytes) (s : Str) : utf8Decode bs = some s ↔ bs = utf8 s :=
  ⟨decodeGo_some _ _ _, fun h => h ▸ utf8Decode_utf8 s⟩

/-- An ASCII byte stands only for its own character. -/
theorem encode_ascii {k : Nat} (hk : k < 128) (c : Char) (h : UInt8.ofNat k ∈ String.utf8EncodeChar c) : c.toNat = k := by
  have key : ∀ j : Nat, j < 256 → UInt8.ofNat k = UInt8.ofNat j → j = k := by
    intro j hj e
    have := congrArg UInt8.toNat e
    simp only [UInt8.toNat_ofNat'] at this
    omega
  have hv : c.toNat = c.val.toNat := rfl
  rw [hv]
  unfold String.utf8EncodeChar at h
  simp only at h
  split at h
  · simp only [List.mem_cons, List.not_mem_nil, or_false] at h
    exact key _ (by omega) h
  split at h
  · simp only [List.mem_cons, List.not_mem_nil, or_false] at h
    rcases h with h | h <;> · have := key _ (by omega) h; omega
  split at h
  · simp only [List.mem_cons, List.not_mem_nil, or_false] at h
    rcases h with h | h | h <;> · have := key _ (by omega) h; omega
  · simp only [List.mem_cons, List.not_mem_nil, or_false] at h
    rcases h with h | h | h | h <;> · have := key _ (by omega) h; omega

theorem mem_utf8 {k : Nat} (hk : k < 128) {s : Str} (h : UInt8.ofNat k ∈ utf8 s) : Char.ofNat k ∈ s := by
  obtain ⟨c, hc, h2⟩ := List.mem_flatMap.1 h
  have := encode_ascii hk c h2
  rw [← this, Char.ofNat_toNat]
  exact hc

theorem utf8_cons (c : Char) (s : Str) : utf8 (c :: s) = String.utf8EncodeChar c ++ utf8 s := rfl

theorem encode_ne (c : Char) : String.utf8EncodeChar c ≠ [] := by
  intro h
  have := String.length_utf8EncodeChar c
  rw [h] at this
  have := Char.utf8Size_pos c
  simp at *

theorem head_utf8 {s : Str} {k : Nat} (hk : k < 128) (h : (utf8 s).head? = some (UInt8.ofNat k)) : s.head? = some (Char.ofNat k) := by
  cases s with
  | nil => cases h
  | cons c t =>
    rw [utf8_cons] at h
    cases he : String.utf8EncodeChar c with
    | nil => exact absurd he (encode_ne c)
    | cons a b =>
      rw [he] at h
      simp only [List.cons_append, List.head?_cons, Option.some.injEq] at h
      have := encode_ascii hk c (by rw [he, ← h]; simp)
      rw [List.head?_cons, ← this, Char.ofNat_toNat]

theorem last_utf8 {s : Str} {k : Nat} (hk : k < 128) (h : (utf8 s).getLast? = some (UInt8.ofNat k)) : s.getLast? = some (Char.ofNat k) := by
  rcases List.eq_nil_or_concat s with rfl | ⟨t, c, rfl⟩
  · cases h
  · rw [List.concat_eq_append, utf8_append] at h
    have e : utf8 [c] = String.utf8EncodeChar c := by simp [utf8]
    rw [e] at h
    rcases List.eq_nil_or_concat (String.utf8EncodeChar c) with he | ⟨a, b, he⟩
    · exact absurd he (encode_ne c)
    · rw [he, List.concat_eq_append, ← List.append_assoc, List.getLast?_concat] at h
      simp only [Option.some.injEq] at h
      have := encode_ascii hk c (by rw [he, ← h]; simp)
      rw [List.concat_eq_append, List.getLast?_concat, ← this, Char.ofNat_toNat]

/-! ## Names -/

def letters : List Char := "Call-IDi".toList

theorem letter_table : ∀ d ∈ letters, ∀ b : Fin 256, (lowerByte (UInt8.ofNat b.val) = lowerByte (UInt8.ofNat d.toNat)) →
    b.val < 128 ∧ (Char.ofNat b.val).toLower = d.toLower := by decide +kernel

theorem letter_table' : ∀ d ∈ letters, ∀ b : Fin 128, (Char.ofNat b.val).toLower = d.toLower →
    lowerByte (UInt8.ofNat b.val) = lowerByte (UInt8.ofNat d.toNat) := by decide +kernel

theorem letters_small : ∀ d ∈ letters, d.toNat < 128 ∧ d.toLower.toNat < 128 := by decide

theorem encode_small {c : Char} (h : c.toNat < 128) : String.utf8EncodeChar c = [UInt8.ofNat c.toNat] := by
  have e : c.val.toNat = c.toNat := rfl
  unfold String.utf8EncodeChar
  simp only [e]
  rw [if_pos (by omega)]

theorem toLower_small {c : Char} (h : c.toLower.toNat < 128) : c.toNat < 128 := by
  unfold Char.toLower at h
  split at h
  · rename_i hu
    have := hu.2
    have : c.val.toNat ≤ 90 := by
      have := UInt32.le_iff_toNat_le.mp hu.2
      simpa using this
    have e : c.toNat = c.val.toNat := rfl
    omega
  · exact h

theorem says_iff (w : Str) (hw : ∀ d ∈ w, d ∈ letters) (n : Bytes) :
    n.map lowerByte = (utf8 w).map lowerByte ↔ ∃ s, n = utf8 s ∧ SameName s w := by
  induction w generalizing n with
  | nil =>
    constructor
    · intro h
      have : n = [] := by simpa [utf8] using h
      exact ⟨[], this, .nil⟩
    · rintro ⟨s, rfl, h⟩
      cases h; rfl
  | cons d w ih =>
    have hd := hw d (by simp)
    obtain ⟨hs1, hs2⟩ := letters_small d hd
    rw [utf8_cons, encode_small hs1]
    simp only [List.cons_append, List.nil_append, List.map_cons]
    constructor
    · intro h
      cases n with
      | nil => cases h
      | cons b n =>
        simp only [List.map_cons, List.cons.injEq] at h
        obtain ⟨h1, h2⟩ := h
        obtain ⟨s, rfl, h3⟩ := (ih (fun x hx => hw x (by simp [hx])) n).1 h2
        have hb := letter_table d hd ⟨b.toNat, b.toNat_lt⟩ (by simpa using h1)
        simp only at hb
        have hv : (Char.ofNat b.toNat).toNat = b.toNat := by
          have hv : b.toNat.isValidChar := by unfold Nat.isValidChar; omega
          unfold Char.ofNat
          rw [dif_pos hv]
          rfl
        refine ⟨Char.ofNat b.toNat :: s, ?_, ?_⟩
        · rw [utf8_cons, encode_small (by omega), hv]
          simp
        · rw [sameName_iff] at h3 ⊢
          unfold eqIgnoreCase lower at h3 ⊢
          simp only [List.map_cons, hb.2, beq_iff_eq] at h3 ⊢
          rw [h3]
    · rintro ⟨s, rfl, h⟩
      rw [sameName_iff] at h
      unfold eqIgnoreCase lower at h
      cases s with
      | nil => simp at h
      | cons c s =>
        simp only [List.map_cons, beq_iff_eq, List.cons.injEq] at h
        obtain ⟨h1, h2⟩ := h
        have hc : c.toNat < 128 := toLower_small (by rw [h1]; exact hs2)
        rw [utf8_cons, encode_small hc]
        simp only [List.cons_append, List.nil_append, List.map_cons]
        have e1 : lowerByte (UInt8.ofNat c.toNat) = lowerByte (UInt8.ofNat d.toNat) :=
          letter_table' d hd ⟨c.toNat, hc⟩ (by simp only [Char.ofNat_toNat]; exact h1)
        have e2 : (utf8 s).map lowerByte = (utf8 w).map lowerByte :=
          (ih (fun x hx => hw x (by simp [hx])) _).2 ⟨s, rfl, by
            rw [sameName_iff]; unfold eqIgnoreCase lower; simpa using h2⟩
        rw [e1, e2]

theorem colon_table : ∀ b : Fin 256, lowerByte (UInt8.ofNat b.val) = 58 → b.val = 58 := by decide +kernel

theorem colon_lower {b : UInt8} (h : lowerByte b = 58) : b = 58 := by
  have := colon_table ⟨b.toNat, b.toNat_lt⟩ (by simpa using h)
  simp only at this
  have := congrArg UInt8.ofNat this
  simpa using this

theorem starts_iff (w : String) (hw : ∀ d ∈ w.toList, d ∈ letters) (l : Bytes) :
    startsWithCi l (utf8 w.toList ++ [58]) = true ↔ ∃ n, Says n w ∧ l = n ++ 58 :: l.drop (utf8 w.toList ++ [58]).length := by
  unfold startsWithCi
  simp only [Bool.and_eq_true, decide_eq_true_eq, beq_iff_eq, List.map_append, List.length_append, List.length_cons, List.length_nil, Nat.zero_add]
  have h58 : lowerByte 58 = 58 := by decide
  constructor
  · rintro ⟨h1, h2⟩
    have e : l.take ((utf8 w.toList).length + 1) = l.take (utf8 w.toList).length ++ (l.drop (utf8 w.toList).length).take 1 := by
      rw [List.take_add]
    rw [e, List.map_append] at h2
    have hl : ((l.take (utf8 w.toList).length).map lowerByte).length = ((utf8 w.toList).map lowerByte).length := by
      simp; omega
    obtain ⟨e1, e2⟩ := List.append_inj h2 hl
    obtain ⟨s, h3, h4⟩ := (says_iff _ hw _).1 e1
    refine ⟨_, ⟨s, h3, h4⟩, ?_⟩
    cases hd : l.drop (utf8 w.toList).length with
    | nil => rw [hd] at e2; cases e2
    | cons b t =>
      rw [hd] at e2
      simp only [List.take_succ_cons, List.take_zero, List.map_cons, List.map_nil, List.cons.injEq, and_true] at e2
      rw [h58] at e2
      have hb := colon_lower e2
      subst hb
      have ht : l.drop ((utf8 w.toList).length + 1) = t := by
        rw [← List.drop_drop, hd]; rfl
      rw [ht, ← hd, List.take_append_drop]
  · rintro ⟨n, ⟨s, rfl, h⟩, hl⟩
    have e := (says_iff _ hw _).2 ⟨s, rfl, h⟩
    have hlen : (utf8 s).length = (utf8 w.toList).length := by
      have := congrArg List.length e
      simpa using this
    rw [hl]
    simp only [List.length_append, List.length_cons]
    refine ⟨by omega, ?_⟩
    rw [List.take_append, hlen, Nat.add_sub_cancel_left, List.take_of_length_le (by omega)]
    simp only [List.take_succ_cons, List.take_zero, List.map_append, e, List.map_cons, List.map_nil]

theorem says_long_short {n m : Bytes} {x y : Bytes} (h1 : Says n "Call-ID") (h2 : Says m "i") (h : n ++ 58 :: x = m ++ 58 :: y) : False := by
  obtain ⟨s, rfl, h1⟩ := h1
  obtain ⟨t, rfl, h2⟩ := h2
  have e1 := (says_iff "Call-ID".toList (by decide) _).2 ⟨s, rfl, h1⟩
  have e2 := (says_iff "i".toList (by decide) _).2 ⟨t, rfl, h2⟩
  have e3 := congrArg (fun l => (l.map lowerByte).take 1) h
  simp only [List.map_append, e1, e2] at e3
  revert e3
  have a1 : (utf8 "Call-ID".toList).map lowerByte = (99 : UInt8) :: [97, 108, 108, 45, 105, 100] := by decide +kernel
  have a2 : (utf8 "i".toList).map lowerByte = [(105 : UInt8)] := by decide +kernel
  rw [a1, a2]
  simp only [List.cons_append, List.take_succ_cons, List.take_zero]
  decide

theorem says_length {n : Bytes} {w : String} (hw : ∀ d ∈ w.toList, d ∈ letters) (h : Says n w) : n.length = (utf8 w.toList).length := by
  obtain ⟨s, rfl, h⟩ := h
  have := congrArg List.length ((says_iff _ hw _).2 ⟨s, rfl, h⟩)
  simpa using this

theorem match_iff (l v : Bytes) : matchCallId l = some v ↔ CallIdLine l v := by
  have hL : longName = utf8 "Call-ID".toList ++ [58] := by decide +kernel
  have hS : shortName = utf8 "i".toList ++ [58] := by decide +kernel
  have hl7 : ∀ d ∈ "Call-ID".toList, d ∈ letters := by decide
  have hl1 : ∀ d ∈ "i".toList, d ∈ letters := by decide
  have dropL : ∀ {n : Bytes} {w : String} (hw : ∀ d ∈ w.toList, d ∈ letters) (x : Bytes), Says n w →
      (n ++ 58 :: x).drop (utf8 w.toList ++ [58]).length = x := by
    intro n w hw x hn
    rw [List.length_append, ← says_length hw hn, ← List.drop_drop, List.drop_left]
    rfl
  unfold matchCallId CallIdLine
  rw [hL, hS]
  constructor
  · intro h
    split at h
    · rename_i hs
      obtain ⟨n, h1, h2⟩ := (starts_iff _ hl7 l).1 hs
      cases h
      exact ⟨n, .inl h1, h2⟩
    · split at h
      · rename_i hs
        obtain ⟨n, h1, h2⟩ := (starts_iff _ hl1 l).1 hs
        cases h
        exact ⟨n, .inr h1, h2⟩
      · cases h
  · rintro ⟨n, hn, rfl⟩
    rcases hn with hn | hn
    · rw [if_pos ((starts_iff _ hl7 _).2 ⟨n, hn, by rw [dropL hl7 _ hn]⟩), dropL hl7 _ hn]
    · rw [if_neg, if_pos ((starts_iff _ hl1 _).2 ⟨n, hn, by rw [dropL hl1 _ hn]⟩), dropL hl1 _ hn]
      intro hc
      obtain ⟨m, h1, h2⟩ := (starts_iff _ hl7 _).1 hc
      exact says_long_short h1 hn h2.symm

theorem match_none (l : Bytes) : matchCallId l = none ↔ ¬ ∃ v, CallIdLine l v := by
  cases h : matchCallId l with
  | none =>
    simp only [true_iff]
    rintro ⟨v, hv⟩
    rw [← match_iff, h] at hv
    cases hv
  | some v => simp only [reduceCtorEq, false_iff, Classical.not_not]; exact ⟨v, (match_iff _ _).1 h⟩

/-! ## Stripping -/

theorem dropWhile_all {P : UInt8 → Bool} (a b : Bytes) (h : ∀ c ∈ a, P c = true) : (a ++ b).dropWhile P = b.dropWhile P := by
  induction a with
  | nil => rfl
  | cons x xs ih =>
    simp only [List.cons_append, List.dropWhile, h x (by simp)]
    exact ih (fun c hc => h c (by simp [hc]))

theorem dropWhile_keep {P : UInt8 → Bool} (b : Bytes) (h : ∀ c, b.head? = some c → P c = false) : b.dropWhile P = b := by
  cases b with
  | nil => rfl
  | cons x xs => simp only [List.dropWhile, h x rfl]

theorem dropWhile_spec {P : UInt8 → Bool} : ∀ b : Bytes, (∃ a, b = a ++ b.dropWhile P ∧ ∀ c ∈ a, P c = true) ∧
    ∀ c, (b.dropWhile P).head? = some c → P c = false
  | [] => ⟨⟨[], rfl, nofun⟩, nofun⟩
  | x :: xs => by
    obtain ⟨⟨a, h1, h2⟩, h3⟩ := dropWhile_spec (P := P) xs
    rcases Bool.eq_false_or_eq_true (P x) with h | h
    · have e : (x :: xs).dropWhile P = xs.dropWhile P := by simp only [List.dropWhile, h]
      rw [e]
      refine ⟨⟨x :: a, by rw [List.cons_append, ← h1], ?_⟩, h3⟩
      intro c hc
      rcases List.mem_cons.1 hc with rfl | hc
      · exact h
      · exact h2 c hc
    · have e : (x :: xs).dropWhile P = x :: xs := by simp only [List.dropWhile, h]
      rw [e]
      exact ⟨⟨[], rfl, nofun⟩, fun c hc => by cases hc; exact h⟩

def isB (b : UInt8) : Bool := b == 32 || b == 9
def isBC (b : UInt8) : Bool := b == 32 || b == 9 || b == 13

theorem trim_eq (s : Bytes) : trimAscii s = ((s.dropWhile isB).reverse.dropWhile isBC).reverse := rfl

theorem isB_iff (b : UInt8) : isB b = true ↔ b = 32 ∨ b = 9 := by simp [isB]
theorem isBC_iff (b : UInt8) : isBC b = true ↔ b = 32 ∨ b = 9 ∨ b = 13 := by simp [isBC, or_assoc]
theorem isB_not (b : UInt8) : isB b = false ↔ b ≠ 32 ∧ b ≠ 9 := by
  rw [← Bool.not_eq_true, isB_iff, not_or]
theorem isBC_not (b : UInt8) : isBC b = false ↔ b ≠ 32 ∧ b ≠ 9 ∧ b ≠ 13 := by
  rw [← Bool.not_eq_true, isBC_iff, not_or, not_or]

theorem stripped_iff (v t : Bytes) : trimAscii v = t ↔ Stripped v t := by
  rw [trim_eq]
  constructor
  · rintro rfl
    obtain ⟨⟨a, h1, h2⟩, h3⟩ := dropWhile_spec (P := isB) v
    obtain ⟨⟨b, h4, h5⟩, h6⟩ := dropWhile_spec (P := isBC) (v.dropWhile isB).reverse
    generalize hd : v.dropWhile isB = d at *
    generalize hx : d.reverse.dropWhile isBC = x at *
    have hdd : d = x.reverse ++ b.reverse := by
      have := congrArg List.reverse h4
      simpa using this
    refine ⟨a, b.reverse, ?_, fun y hy => (isB_iff y).1 (h2 y hy), fun y hy => (isBC_iff y).1 (h5 y (by simpa using hy)), ?_, ?_⟩
    · rw [h1, hdd]; simp
    · intro y hy
      refine (isB_not y).1 (h3 y ?_)
      rw [hdd]
      cases hr : x.reverse with
      | nil => rw [hr] at hy; cases hy
      | cons p q => rw [hr] at hy; simpa using hy
    · intro y hy
      rw [List.getLast?_reverse] at hy
      exact (isBC_not y).1 (h6 y hy)
  · rintro ⟨a, b, rfl, h1, h2, h3, h4⟩
    rw [List.append_assoc, dropWhile_all a _ (fun c hc => (isB_iff c).2 (h1 c hc))]
    cases t with
    | nil =>
      have : ∀ (b : Bytes), (∀ x ∈ b, isBC x = true) → (b.reverse.dropWhile isBC).reverse = [] := by
        intro b hb
        have := dropWhile_all (P := isBC) b.reverse [] (fun c hc => hb c (by simpa using hc))
        rw [List.append_nil] at this
        rw [this]; rfl
      simp only [List.nil_append]
      refine this _ (fun x hx => ?_)
      obtain ⟨⟨a', e1, _⟩, _⟩ := dropWhile_spec (P := isB) b
      exact (isBC_iff x).2 (h2 x (by rw [e1]; exact List.mem_append_right _ hx))
    | cons y t =>
      rw [dropWhile_keep (P := isB) (y :: t ++ b) (fun c hc => by cases hc; exact (isB_not _).2 (h3 _ rfl))]
      rw [List.reverse_append, dropWhile_all b.reverse _ (fun c hc => (isBC_iff c).2 (h2 c (by simpa using hc))),
        dropWhile_keep, List.reverse_reverse]
      intro c hc
      rw [List.head?_reverse] at hc
      exact (isBC_not c).2 (h4 c hc)

/-! ## Lines -/

theorem scan_line : ∀ (x cur t : Bytes), (10 : UInt8) ∉ x → scan cur (x ++ 10 :: t) =
    if (dropCr (cur ++ x)).isEmpty then none
    else match matchCallId (dropCr (cur ++ x)) with
      | some v => utf8Decode (trimAscii v)
      | none => scan [] t
  | [], cur, t, _ => by
    rw [List.nil_append, scan, if_pos rfl, List.append_nil]
    rfl
  | b :: x, cur, t, h => by
    have hb : b ≠ 10 := fun e => h (by simp [e])
    rw [List.cons_append, scan, if_neg hb, scan_line x _ t (fun hm => h (List.mem_cons_of_mem _ hm))]
    simp only [List.append_assoc, List.singleton_append]

theorem scan_none : ∀ (x cur : Bytes), (10 : UInt8) ∉ x → scan cur x = none
  | [], _, _ => rfl
  | b :: x, cur, h => by
    rw [scan, if_neg (fun e => h (by simp [e])), scan_none x _ (fun hm => h (List.mem_cons_of_mem _ hm))]

theorem line_scan {l e : Bytes} (h : Line l e) (t : Bytes) : scan [] (l ++ e ++ t) =
    if l = [] then none else match matchCallId l with
      | some v => utf8Decode (trimAscii v)
      | none => scan [] t := by
  obtain ⟨h1, h2⟩ := h
  have key : ∀ x, (10 : UInt8) ∉ x → dropCr x = l → scan [] (x ++ 10 :: t) = if l = [] then none else match matchCallId l with
      | some v => utf8Decode (trimAscii v)
      | none => scan [] t := by
    intro x hx hd
    rw [scan_line x [] t hx, List.nil_append, hd]
    cases l with
    | nil => simp
    | cons a b => simp
  rcases h2 with rfl | ⟨rfl, h2⟩
  · have := key (l ++ [13]) (by simp [h1]) (by unfold dropCr; rw [List.getLast?_concat, if_pos rfl, List.dropLast_concat])
    simpa using this
  · have := key l h1 (by unfold dropCr; rw [if_neg h2])
    simpa using this

theorem split_lf : ∀ p : Bytes, (10 : UInt8) ∈ p → ∃ x t, p = x ++ 10 :: t ∧ (10 : UInt8) ∉ x
  | b :: p, h => by
    by_cases e : b = 10
    · exact ⟨[], p, by rw [e]; rfl, by simp⟩
    · rcases List.mem_cons.1 h with h | h
      · exact absurd h.symm e
      · obtain ⟨x, t, rfl, hx⟩ := split_lf p h
        exact ⟨b :: x, t, rfl, by simp [hx, Ne.symm e]⟩

theorem split_line (p : Bytes) : (10 : UInt8) ∉ p ∨ ∃ l e t, p = l ++ e ++ t ∧ Line l e ∧ e ≠ [] := by
  by_cases h : (10 : UInt8) ∈ p
  · right
    obtain ⟨x, t, rfl, hx⟩ := split_lf p h
    by_cases hc : x.getLast? = some 13
    · rcases List.eq_nil_or_concat x with rfl | ⟨y, z, rfl⟩
      · cases hc
      · rw [List.concat_eq_append, List.getLast?_concat] at hc
        cases hc
        exact ⟨y, [13, 10], t, by simp, ⟨fun hm => hx (by simp [hm]), .inl rfl⟩, by simp⟩
    · exact ⟨x, [10], t, by simp, ⟨hx, .inr ⟨rfl, hc⟩⟩, by simp⟩
  · exact .inl h

end Siphon.Hep
