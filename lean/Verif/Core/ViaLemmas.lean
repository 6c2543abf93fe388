import Verif.Core.Via
import Verif.Core.ViaSpec
import Verif.Core.UriRoundtrip
import Verif.Core.HeadersProps
import Verif.Base.TextLemmas
/-! Lemmas about Via values: the sub-grammars, parameters, and the text that is written. -/
set_option linter.unusedSimpArgs false
namespace Siphon.Via
open TextSpec HdrSpec ViaSpec UriP
open Siphon.Auth (splitOnce_some_iff)

/-! ## Characters -/

theorem tok_iff (c : Char) : isUriTokenChar c = true ↔ TokChar c := by
  simp only [isUriTokenChar, TokChar, Bool.or_eq_true, isAlnum_iff]
  simp
  constructor <;> intro h <;> grind

theorem hostChar_iff (c : Char) : isHostChar c = true ↔ HostChar c := by
  simp only [isHostChar, HostChar, Bool.or_eq_true, isAlnum_iff, beq_iff_eq]
  simp
  constructor <;> intro h <;> grind

theorem v6Char_iff (c : Char) : (isHexDigit c || c == ':' || c == '.') = true ↔ V6Char c := by
  simp only [isHexDigit, isDigit, V6Char, Bool.or_eq_true, Bool.and_eq_true, decide_eq_true_eq, char_le_iff, beq_iff_eq]
  simp
  constructor <;> intro h <;> grind

theorem ctl_iff (c : Char) : isControl c = true ↔ Control c := control_iff c

theorem hostChar_hostCh {c : Char} (h : HostChar c) : HostCh c := Or.inl ((hostChar_iff c).mpr h)

theorem v6_hostCh {c : Char} (h : V6Char c) : HostCh c := by
  have := (v6Char_iff c).mpr h
  simp only [Bool.or_eq_true, beq_iff_eq] at this
  rcases this with (h | h) | h
  · exact Or.inl (hex_host h)
  · exact Or.inr h
  · subst h; exact hostCh_dot

/-! ## Sub-grammars -/

theorem splitLast_iff (c : Char) (s a b : Str) : splitLast c s = some (a, b) ↔ s = a ++ c :: b ∧ c ∉ b := by
  constructor
  · intro h
    simp only [splitLast, Option.map_eq_some_iff, Prod.mk.injEq] at h
    obtain ⟨⟨x, y⟩, h1, h2, h3⟩ := h
    obtain ⟨e1, e2⟩ := (splitOnce_some_iff _ _ _ _).mp h1
    simp only at h2 h3
    subst h2; subst h3
    have := congrArg List.reverse e1
    simp at this
    exact ⟨by simpa using this, by simpa using e2⟩
  · rintro ⟨rfl, h⟩
    exact splitLast_append _ _ _ h

theorem splitLast_none_iff (c : Char) (s : Str) : splitLast c s = none ↔ c ∉ s := by
  simp [splitLast, splitOnce_none_iff]

theorem digits_of_dec {p : Str} {n : Nat} (h : DecDigits p n) : ∀ c ∈ p, isDigit c = true := (decDigits_val h).2

theorem validPort_iff (p : Str) : validPort p = true ↔ PortText p := by
  constructor
  · intro h
    simp only [validPort, Bool.and_eq_true] at h
    obtain ⟨⟨h1, h2⟩, h3⟩ := h
    cases hd : parseDec 4294967295 p with
    | none => rw [hd] at h3; cases h3
    | some n =>
      rw [hd] at h3
      simp only [Bool.and_eq_true, decide_eq_true_eq] at h3
      rcases parseDec_some hd with hh | ⟨r, rfl, _⟩
      · exact ⟨n, hh, h3.1, h3.2⟩
      · simp only [List.all_cons, not_digit_plus, Bool.false_and] at h2; cases h2
  · rintro ⟨n, hd, h1, h2⟩
    have e := parseDec_complete (max := 4294967295) (Or.inl hd) (by omega)
    simp only [validPort, e, Bool.and_eq_true, Bool.not_eq_true', List.isEmpty_eq_false_iff, List.all_eq_true,
      decide_eq_true_eq]
    exact ⟨⟨decDigits_ne hd, digits_of_dec hd⟩, h1, h2⟩

theorem port_digit {p : Str} (h : PortText p) : ∀ c ∈ p, isDigit c = true := by
  obtain ⟨n, h, _⟩ := h; exact digits_of_dec h

theorem hostCh_colon_not (c : Char) (h : HostChar c) : c ≠ ':' := by
  rintro rfl
  have := (hostChar_iff ':').mpr h
  exact absurd this (by decide)

theorem validName_spec (s : Str) (hb : ∀ t, s ≠ '[' :: t) : validName s = true ↔ ∃ h, SentBy s h := by
  have hostAll : ∀ h : Str, h.all isHostChar = true ↔ ∀ c ∈ h, HostChar c := fun h => by
    simp only [List.all_eq_true, hostChar_iff]
  constructor
  · intro h
    simp only [validName, Bool.and_eq_true] at h
    obtain ⟨_, h4⟩ := h
    cases hl : splitLast ':' s with
    | none =>
      simp only [hl, Bool.and_eq_true, Bool.not_eq_true', List.isEmpty_eq_false_iff, hostAll] at h4
      exact ⟨s, .name h4.1 h4.2⟩
    | some ab =>
      obtain ⟨a, p⟩ := ab
      simp only [hl, Bool.and_eq_true, Bool.not_eq_true', List.isEmpty_eq_false_iff, hostAll, validPort_iff] at h4
      obtain ⟨rfl, _⟩ := (splitLast_iff _ _ _ _).mp hl
      exact ⟨a, .namePort h4.1.1 h4.1.2 h4.2⟩
  · rintro ⟨h, hs⟩
    have brk : ∀ c, isHostChar c = true → c ≠ '[' ∧ c ≠ ']' := by
      intro c hc; constructor <;> (rintro rfl; exact absurd hc (by decide))
    have dig : ∀ c, isDigit c = true → c ≠ '[' ∧ c ≠ ']' ∧ c ≠ ':' := by
      intro c hc; refine ⟨?_, ?_, ?_⟩ <;> (rintro rfl; exact absurd hc (by decide))
    cases hs with
    | name h1 h2 =>
      have hc : ':' ∉ s := fun hm => hostCh_colon_not _ (h2 _ hm) rfl
      have hb1 : '[' ∉ s := fun hm => (brk _ ((hostChar_iff _).mpr (h2 _ hm))).1 rfl
      have hb2 : ']' ∉ s := fun hm => (brk _ ((hostChar_iff _).mpr (h2 _ hm))).2 rfl
      simp only [validName, (splitLast_none_iff _ _).mpr hc, Bool.and_eq_true, Bool.not_eq_true', List.isEmpty_eq_false_iff, hostAll,
        List.count_eq_zero_of_not_mem hc, List.contains_eq_mem, decide_eq_false_iff_not, decide_eq_true_eq]
      exact ⟨⟨⟨hb1, hb2⟩, by omega⟩, h1, h2⟩
    | @namePort _ p h1 h2 h3 =>
      have hcp : ':' ∉ p := fun hm => (dig _ (port_digit h3 _ hm)).2.2 rfl
      have hch : ':' ∉ h := fun hm => hostCh_colon_not _ (h2 _ hm) rfl
      have hb1 : '[' ∉ h ++ ':' :: p := by
        simp only [List.mem_append, List.mem_cons, not_or]
        exact ⟨fun hm => (brk _ ((hostChar_iff _).mpr (h2 _ hm))).1 rfl, by decide, fun hm => (dig _ (port_digit h3 _ hm)).1 rfl⟩
      have hb2 : ']' ∉ h ++ ':' :: p := by
        simp only [List.mem_append, List.mem_cons, not_or]
        exact ⟨fun hm => (brk _ ((hostChar_iff _).mpr (h2 _ hm))).2 rfl, by decide, fun hm => (dig _ (port_digit h3 _ hm)).2.1 rfl⟩
      simp only [validName, splitLast_append _ _ _ hcp, Bool.and_eq_true, Bool.not_eq_true', List.isEmpty_eq_false_iff, hostAll,
        validPort_iff, List.contains_eq_mem, decide_eq_false_iff_not, decide_eq_true_eq]
      refine ⟨⟨⟨hb1, hb2⟩, ?_⟩, ⟨h1, h2⟩, h3⟩
      rw [List.count_append, List.count_cons_self, List.count_eq_zero_of_not_mem hch, List.count_eq_zero_of_not_mem hcp]
      omega
    | v6 => exact absurd rfl (hb _)
    | v6Port => exact absurd rfl (hb _)

theorem v6_no_bracket {a : Str} (h : ∀ c ∈ a, V6Char c) : ']' ∉ a := fun hm => by
  have := (v6Char_iff _).mpr (h _ hm)
  exact absurd this (by decide)

theorem validV6_spec (t : Str) : validV6 t = true ↔ ∃ h, SentBy ('[' :: t) h := by
  have hostAll : ∀ h : Str, h.all (fun c => isHexDigit c || c == ':' || c == '.') = true ↔ ∀ c ∈ h, V6Char c := fun h => by
    simp only [List.all_eq_true, v6Char_iff]
  constructor
  · intro h
    simp only [validV6] at h
    cases hs : splitOnce ']' t with
    | none => rw [hs] at h; cases h
    | some ab =>
      obtain ⟨a, rest⟩ := ab
      obtain ⟨rfl, _⟩ := (splitOnce_some_iff _ _ _ _).mp hs
      simp only [hs, Bool.and_eq_true, Bool.not_eq_true', List.isEmpty_eq_false_iff, hostAll] at h
      obtain ⟨⟨h1, h2⟩, h3⟩ := h
      split at h3
      · exact ⟨a, .v6 h1 h2⟩
      · exact ⟨a, .v6Port h1 h2 ((validPort_iff _).mp h3)⟩
      · cases h3
  · rintro ⟨h, hs⟩
    generalize he : '[' :: t = s at hs
    cases hs with
    | name h1 h2 =>
      subst he
      have := (hostChar_iff _).mpr (h2 '[' (by simp))
      exact absurd this (by decide)
    | @namePort _ p h1 h2 h3 =>
      cases h with
      | nil => exact absurd rfl h1
      | cons x xs =>
        simp only [List.cons_append, List.cons.injEq] at he
        have := (hostChar_iff _).mpr (h2 x (by simp))
        rw [← he.1] at this
        exact absurd this (by decide)
    | v6 h1 h2 =>
      simp only [List.cons_append, List.cons.injEq, true_and] at he
      subst he
      rw [validV6, splitOnce_append _ _ _ (v6_no_bracket h2)]
      simp only [Bool.and_eq_true, Bool.not_eq_true', List.isEmpty_eq_false_iff, hostAll]
      exact ⟨⟨h1, h2⟩, trivial⟩
    | v6Port h1 h2 h3 =>
      simp only [List.cons_append, List.cons.injEq, true_and] at he
      subst he
      rw [validV6, splitOnce_append _ _ _ (v6_no_bracket h2)]
      simp only [Bool.and_eq_true, Bool.not_eq_true', List.isEmpty_eq_false_iff, hostAll, validPort_iff]
      exact ⟨⟨h1, h2⟩, h3⟩

theorem digit_hostCh {c : Char} (h : isDigit c = true) : HostCh c := Or.inl (digit_host h)

/-- the characters of a sent-by -/
theorem sentBy_chars {s h : Str} (hs : SentBy s h) : s ≠ [] ∧ ∀ c ∈ s, HostCh c ∨ c = '[' ∨ c = ']' := by
  cases hs with
  | name h1 h2 => exact ⟨h1, fun c hc => Or.inl (hostChar_hostCh (h2 c hc))⟩
  | namePort h1 h2 h3 =>
    refine ⟨by simp, fun c hc => ?_⟩
    simp only [List.mem_append, List.mem_cons] at hc
    rcases hc with hc | rfl | hc
    · exact Or.inl (hostChar_hostCh (h2 c hc))
    · exact Or.inl hostCh_colon
    · exact Or.inl (digit_hostCh (port_digit h3 c hc))
  | v6 h1 h2 =>
    refine ⟨by simp, fun c hc => ?_⟩
    simp only [List.cons_append, List.mem_append, List.mem_cons, List.not_mem_nil, or_false] at hc
    rcases hc with hc | hc | hc
    · exact Or.inr (Or.inl hc)
    · exact Or.inl (v6_hostCh (h2 c hc))
    · exact Or.inr (Or.inr hc)
  | v6Port h1 h2 h3 =>
    refine ⟨by simp, fun c hc => ?_⟩
    simp only [List.cons_append, List.mem_append, List.mem_cons] at hc
    rcases hc with hc | hc | hc | rfl | hc
    · exact Or.inr (Or.inl hc)
    · exact Or.inl (v6_hostCh (h2 c hc))
    · exact Or.inr (Or.inr hc)
    · exact Or.inl hostCh_colon
    · exact Or.inl (digit_hostCh (port_digit h3 c hc))

theorem validSentBy_iff (s : Str) : validSentBy s = true ↔ (∃ h, SentBy s h) ∧ utf8Len s ≤ 256 := by
  have key : (match s with | '[' :: t => validV6 t | _ => validName s) = true ↔ ∃ h, SentBy s h := by
    split
    · exact validV6_spec _
    · rename_i hb
      exact validName_spec s (fun t ht => hb t ht)
  simp only [validSentBy, Bool.and_eq_true, Bool.not_eq_true', List.isEmpty_eq_false_iff, decide_eq_true_eq]
  constructor
  · rintro ⟨⟨⟨_, h2⟩, _⟩, h4⟩
    exact ⟨key.mp h4, h2⟩
  · rintro ⟨h1, h2⟩
    obtain ⟨h, hs⟩ := h1
    obtain ⟨e1, e2⟩ := sentBy_chars hs
    refine ⟨⟨⟨e1, h2⟩, ?_⟩, key.mpr ⟨h, hs⟩⟩
    rw [List.any_eq_false]
    intro c hc
    rw [bracket_control (e2 c hc)]; simp

theorem tok_all (s : Str) : s.all isUriTokenChar = true ↔ ∀ c ∈ s, TokChar c := by
  simp only [List.all_eq_true, tok_iff]

theorem tok_no_control {s : Str} (h : ∀ c ∈ s, TokChar c) : s.any isControl = false := by
  rw [List.any_eq_false]
  intro c hc
  rw [token_control c ((tok_iff c).mpr (h c hc))]; simp

theorem validTransport_iff (t : Str) : validTransport t = true ↔ Tok 32 t := by
  simp only [validTransport, Bool.and_eq_true, Bool.not_eq_true', List.isEmpty_eq_false_iff, decide_eq_true_eq,
    tok_all, Tok]
  constructor
  · rintro ⟨⟨⟨h1, h2⟩, _⟩, h4⟩; exact ⟨h1, h4, h2⟩
  · rintro ⟨h1, h2, h3⟩; exact ⟨⟨⟨h1, h3⟩, tok_no_control h2⟩, h2⟩

theorem validParamName_iff (n : Str) : validParamName n = true ↔ Tok 64 n := by
  simp only [validParamName, Bool.and_eq_true, Bool.not_eq_true', List.isEmpty_eq_false_iff, decide_eq_true_eq,
    tok_all, Tok]
  constructor
  · rintro ⟨⟨h1, h2⟩, h4⟩; exact ⟨h1, h4, h2⟩
  · rintro ⟨h1, h2, h3⟩; exact ⟨⟨h1, h3⟩, h2⟩

theorem validParamValue_iff (v : Str) : validParamValue v = true ↔ Value v := by
  simp only [validParamValue, Bool.and_eq_true, Bool.not_eq_true', decide_eq_true_eq, Value,
    List.any_eq_false, ctl_iff]
  exact Iff.rfl

theorem tok_lower {m : Nat} {n : Str} (h : Tok m n) : Tok m (lower n) := by
  obtain ⟨h1, h2, h3⟩ := h
  refine ⟨by simpa [lower] using h1, ?_, by rw [utf8Len_lower]; exact h3⟩
  intro c hc
  simp only [lower, List.mem_map] at hc
  obtain ⟨d, hd, rfl⟩ := hc
  exact (tok_iff _).mp (token_lower d ((tok_iff d).mpr (h2 d hd)))

theorem tok_ws {m : Nat} {n : Str} (h : Tok m n) : ∀ c ∈ n, isWs c = false :=
  fun c hc => token_ws c ((tok_iff c).mpr (h.2.1 c hc))

theorem tok_trim {m : Nat} {n : Str} (h : Tok m n) : trim n = n := trim_of_trimmed _ (trimmed_of_all _ (tok_ws h))

theorem tok_not_mem {m : Nat} {n : Str} (h : Tok m n) (k : Char) (hk : isUriTokenChar k = false) : k ∉ n := fun hm => by
  have := (tok_iff k).mpr (h.2.1 k hm)
  rw [hk] at this; cases this

/-! ## `BTreeMap` -/

theorem bget_insert {V : Type} (m : BMap V) (k k' : Str) (v : V) :
    (m.insert k v).get k' = if k' = k then some v else m.get k' := by
  induction m with
  | nil =>
    by_cases h : k' = k
    · subst h; simp [BMap.insert, BMap.get]
    · simp [BMap.insert, BMap.get, h, Ne.symm h]
  | cons x t ih =>
    obtain ⟨a, b⟩ := x
    simp only [BMap.insert]
    split
    · rename_i hka
      subst hka
      by_cases h : k' = k
      · subst h; simp [BMap.get]
      · simp [BMap.get, h, Ne.symm h]
    · split
      · by_cases h : k' = k
        · subst h; simp [BMap.get]
        · simp [BMap.get, h, Ne.symm h]
      · rename_i hka _
        by_cases h : a = k'
        · subst h
          simp [BMap.get, Ne.symm hka]
        · have e1 : BMap.get ((a, b) :: BMap.insert t k v) k' = (BMap.insert t k v).get k' := by simp [BMap.get, h]
          have e2 : BMap.get ((a, b) :: t) k' = BMap.get t k' := by simp [BMap.get, h]
          rw [e1, e2, ih]

theorem bhas_iff {V : Type} (m : BMap V) (k : Str) : m.has k = true ↔ ∃ v, m.get k = some v := by
  simp only [BMap.has, BMap.get, List.any_eq_true, Option.map_eq_some_iff]
  constructor
  · rintro ⟨e, he, hk⟩
    cases hf : m.find? (fun e => e.1 == k) with
    | none =>
      rw [List.find?_eq_none] at hf
      exact absurd hk (hf e he)
    | some x => exact ⟨x.2, x, rfl, rfl⟩
  · rintro ⟨v, x, hx, _⟩
    exact ⟨x, List.mem_of_find?_eq_some hx, by simpa using List.find?_some hx⟩

theorem bhas_insert {V : Type} (m : BMap V) (k k' : Str) (v : V) :
    (m.insert k v).has k' = (decide (k' = k) || m.has k') := by
  rw [Bool.eq_iff_iff]
  simp only [bhas_iff, bget_insert, Bool.or_eq_true, decide_eq_true_eq]
  constructor
  · rintro ⟨w, hw⟩
    split at hw
    · exact Or.inl (by assumption)
    · exact Or.inr ⟨w, hw⟩
  · rintro (h | ⟨w, hw⟩)
    · exact ⟨v, by rw [if_pos h]⟩
    · by_cases h : k' = k
      · exact ⟨v, by rw [if_pos h]⟩
      · exact ⟨w, by rw [if_neg h]; exact hw⟩

theorem blength_insert {V : Type} (m : BMap V) (k : Str) (v : V) (h : m.has k = false) :
    (m.insert k v).length = m.length + 1 := by
  induction m with
  | nil => rfl
  | cons x t ih =>
    obtain ⟨a, b⟩ := x
    have hh : a ≠ k ∧ BMap.has t k = false := by
      simpa [BMap.has] using h
    simp only [BMap.insert]
    rw [if_neg (Ne.symm hh.1)]
    split
    · rfl
    · simp [ih hh.2]

/-- in a sorted map, an entry is found under its key -/
theorem bget_mem {V : Type} {m : BMap V} (hs : Sorted m) {e : Str × V} (he : e ∈ m) : m.get e.1 = some e.2 := by
  induction m with
  | nil => cases he
  | cons x t ih =>
    obtain ⟨h1, h2⟩ := List.pairwise_cons.mp hs
    rcases List.mem_cons.mp he with rfl | he
    · simp [BMap.get]
    · have hne : x.1 ≠ e.1 := by
        intro hx
        have := h1 e he
        rw [hx, strLt_irrefl] at this
        cases this
      have := ih h2 he
      simpa [BMap.get, hne] using this

/-! ## Reading parameters -/

/-- the map after reading the parameters `es` -/
def mapOf (es : List (Str × Option Str)) : BMap (Option Str) :=
  es.foldl (fun m e => m.insert (lower e.1) e.2) []

theorem mapOf_snoc (es : List (Str × Option Str)) (e : Str × Option Str) :
    mapOf (es ++ [e]) = (mapOf es).insert (lower e.1) e.2 := by simp [mapOf]

theorem sameName_lower (a b : Str) : SameName a b ↔ lower a = lower b := by
  rw [sameName_iff]; simp [eqIgnoreCase]

theorem snoc_ind {α : Type} {P : List α → Prop} (nil : P []) (snoc : ∀ l a, P l → P (l ++ [a])) (l : List α) : P l := by
  have : ∀ r : List α, P r.reverse := by
    intro r
    induction r with
    | nil => exact nil
    | cons a r ih => rw [List.reverse_cons]; exact snoc _ _ ih
  simpa using this l.reverse

theorem mapOf_has (es : List (Str × Option Str)) (n : Str) :
    (mapOf es).has (lower n) = true ↔ ∃ e ∈ es, SameName e.1 n := by
  induction es using snoc_ind with
  | nil => simp [mapOf, BMap.has]
  | snoc es e ih =>
    rw [mapOf_snoc, bhas_insert]
    simp only [Bool.or_eq_true, decide_eq_true_eq, ih, List.mem_append, List.mem_singleton, sameName_lower]
    constructor
    · rintro (h | ⟨x, hx, h⟩)
      · exact ⟨e, Or.inr rfl, h.symm⟩
      · exact ⟨x, Or.inl hx, h⟩
    · rintro ⟨x, hx | rfl, h⟩
      · exact Or.inr ⟨x, hx, h⟩
      · exact Or.inl h.symm

/-- names in `es` differ -/
def Distinct (es : List (Str × Option Str)) : Prop := es.Pairwise (fun a b => ¬ SameName a.1 b.1)

theorem params_facts {ps : List Str} {es : List (Str × Option Str)} (h : Params ps es) :
    Distinct es ∧ es.length ≤ 20 ∧ (mapOf es).length = es.length := by
  induction h with
  | nil => exact ⟨List.Pairwise.nil, by simp, rfl⟩
  | blank _ _ _ ih => exact ih
  | @param ps es p n x _ hl _ hd ih =>
    obtain ⟨h1, h2, h3⟩ := ih
    refine ⟨?_, by simp; omega, ?_⟩
    · refine List.pairwise_append.mpr ⟨h1, by simp, ?_⟩
      intro a ha b hb
      simp only [List.mem_singleton] at hb
      subst hb
      exact hd a ha
    · rw [mapOf_snoc, blength_insert, h3]
      · simp
      · have : ¬ (mapOf es).has (lower n) = true := by
          rw [mapOf_has]
          rintro ⟨e, he, hs⟩
          exact hd e he hs
        simpa using this

theorem mapOf_get (es : List (Str × Option Str)) (hd : Distinct es) (n : Str) (x : Option Str) :
    (mapOf es).get (lower n) = some x ↔ Says es n x := by
  induction es using snoc_ind with
  | nil => simp [mapOf, BMap.get, Says]
  | snoc es e ih =>
    obtain ⟨h1, _, h2⟩ := List.pairwise_append.mp hd
    rw [mapOf_snoc, bget_insert]
    split
    · rename_i hn
      have hs : SameName e.1 n := (sameName_lower _ _).mpr hn.symm
      constructor
      · intro h
        cases h
        exact ⟨e.1, by simp, hs⟩
      · rintro ⟨m, hm, hmn⟩
        rcases List.mem_append.mp hm with hm | hm
        · exact absurd (sameName_trans hmn (sameName_symm hs)) (h2 (m, x) hm e (by simp))
        · simp only [List.mem_singleton] at hm; subst hm; rfl
    · rename_i hn
      rw [ih h1]
      constructor
      · rintro ⟨m, hm, hmn⟩; exact ⟨m, by simp [hm], hmn⟩
      · rintro ⟨m, hm, hmn⟩
        rcases List.mem_append.mp hm with hm | hm
        · exact ⟨m, hm, hmn⟩
        · simp only [List.mem_singleton] at hm
          subst hm
          exact absurd ((sameName_lower _ _).mp hmn).symm hn

/-- what one text between semicolons does to the map -/
theorem parse_one (p : Str) (ps : List Str) (acc out : BMap (Option Str)) (h : parseParams (p :: ps) acc = some out) :
    acc.length < 20 ∧
    (((∀ c ∈ p, isWs c = true) ∧ parseParams ps acc = some out) ∨
     ∃ n x, Param p n x ∧ acc.has (lower n) = false ∧ parseParams ps (acc.insert (lower n) x) = some out) := by
  simp only [parseParams] at h
  split at h
  · cases h
  · rename_i hl
    refine ⟨by simpa [MAX_PARAMS] using hl, ?_⟩
    split at h
    · rename_i he
      left
      refine ⟨?_, h⟩
      have he' : trim p = [] := by simpa using he
      obtain ⟨a, b, e, ha, hb, _⟩ := (strips_trim p []).mpr he'.symm
      intro c hc
      rw [e] at hc
      simp only [List.append_nil, List.mem_append] at hc
      rcases hc with hc | hc
      · exact ha c hc
      · exact hb c hc
    · rename_i he
      right
      cases hs : splitOnce '=' (trim p) with
      | none =>
        simp only [hs] at h
        split at h
        · cases h
        · rename_i hv
          split at h
          · cases h
          · rename_i hh
            refine ⟨trim p, none, .flag ((strips_trim _ _).mpr rfl) ((splitOnce_none_iff _ _).mp hs)
              ((validParamName_iff _).mp (by simpa using hv)), by simpa using hh, h⟩
      | some kv =>
        obtain ⟨k, v⟩ := kv
        obtain ⟨e1, e2⟩ := (splitOnce_some_iff _ _ _ _).mp hs
        simp only [hs] at h
        split at h
        · cases h
        · rename_i hv
          simp only [Bool.or_eq_true, Bool.not_eq_true', not_or, Bool.not_eq_false] at hv
          split at h
          · cases h
          · rename_i hh
            refine ⟨trim k, some (trim v), .value ((strips_trim _ _).mpr e1.symm) e2 ((strips_trim _ _).mpr rfl)
              ((strips_trim _ _).mpr rfl) ((validParamName_iff _).mp hv.1) ((validParamValue_iff _).mp hv.2), by simpa using hh, h⟩

theorem parseParams_sound : ∀ (ps pre : List Str) (es : List (Str × Option Str)) (out : BMap (Option Str)),
    Params pre es → parseParams ps (mapOf es) = some out → ∃ es', Params (pre ++ ps) es' ∧ out = mapOf es'
  | [], pre, es, out, hp, h => by
    simp only [parseParams, Option.some.injEq] at h
    exact ⟨es, by simpa using hp, h.symm⟩
  | p :: ps, pre, es, out, hp, h => by
    obtain ⟨hl, hh⟩ := parse_one p ps _ _ h
    have hlen := (params_facts hp).2.2
    have e : pre ++ p :: ps = (pre ++ [p]) ++ ps := by simp
    rw [e]
    rcases hh with ⟨hb, h⟩ | ⟨n, x, hx, hn, h⟩
    · exact parseParams_sound ps _ es out (.blank hp (by omega) hb) h
    · refine parseParams_sound ps _ (es ++ [(n, x)]) out (.param hp (by omega) hx ?_) ?_
      · intro e he hs
        have := (mapOf_has es n).mpr ⟨e, he, hs⟩
        rw [hn] at this; cases this
      · rw [mapOf_snoc]; exact h

theorem parseParams_append : ∀ (a b : List Str) (acc : BMap (Option Str)),
    parseParams (a ++ b) acc = (parseParams a acc).bind (parseParams b)
  | [], b, acc => rfl
  | p :: a, b, acc => by
    simp only [List.cons_append, parseParams]
    have ih := fun acc => parseParams_append a b acc
    split
    · rfl
    · split
      · exact ih _
      · cases splitOnce '=' (trim p) with
        | none =>
          simp only
          split
          · rfl
          · split
            · rfl
            · exact ih _
        | some kv =>
          simp only
          split
          · rfl
          · split
            · rfl
            · exact ih _

theorem parseParams_complete {ps : List Str} {es : List (Str × Option Str)} (h : Params ps es) :
    parseParams ps [] = some (mapOf es) := by
  induction h with
  | nil => rfl
  | @blank ps es p hp hl hb ih =>
    have hlen := (params_facts hp).2.2
    rw [parseParams_append, ih]
    have ht : trim p = [] := by
      refine ((strips_trim p []).mp ⟨p, [], by simp, hb, by simp, by simp, by simp⟩).symm
    simp only [Option.bind_some, parseParams]
    rw [if_neg (by simp only [MAX_PARAMS]; omega), ht]
    simp
  | @param ps es p n x hp hl hx hd ih =>
    have hlen := (params_facts hp).2.2
    have hh : (mapOf es).has (lower n) = false := by
      have : ¬ (mapOf es).has (lower n) = true := by
        rw [mapOf_has]
        rintro ⟨e, he, hs⟩
        exact hd e he hs
      simpa using this
    rw [parseParams_append, ih, mapOf_snoc]
    simp only [Option.bind_some, parseParams]
    rw [if_neg (by simp only [MAX_PARAMS]; omega)]
    cases hx with
    | flag h1 h2 h3 =>
      rw [← (strips_trim _ _).mp h1, if_neg (by simpa using h3.1), splitOnce_none _ _ h2]
      simp only
      rw [if_neg (by rw [(validParamName_iff _).mpr h3]; simp), if_neg (by rw [hh]; simp)]
    | value h1 h2 h3 h4 h5 h6 =>
      rw [← (strips_trim _ _).mp h1, if_neg (by simp), splitOnce_append _ _ _ h2]
      simp only
      rw [← (strips_trim _ _).mp h3, ← (strips_trim _ _).mp h4,
        if_neg (by rw [(validParamName_iff _).mpr h5, (validParamValue_iff _).mpr h6]; simp), if_neg (by rw [hh]; simp)]

/-! ## Reading a value -/

theorem splitWs_trim (s : Str) : splitWhitespace (trim s) = splitWhitespace s := by
  obtain ⟨a, b, e, ha, hb, hh, hl⟩ := (strips_trim s (trim s)).mpr rfl
  have tail : ∀ (b : Str) (hb : ∀ c ∈ b, isWs c = true) (t cur : Str),
      splitWhitespace.go (t ++ b) cur = splitWhitespace.go t cur := by
    intro b hb t
    induction t with
    | nil =>
      intro cur
      have blank : ∀ b : Str, (∀ c ∈ b, isWs c = true) → splitWhitespace.go b [] = [] := by
        intro b
        induction b with
        | nil => intro _; rfl
        | cons x xs ih =>
          intro h
          simp only [splitWhitespace.go, h x (by simp), if_true]
          exact ih (fun c hc => h c (by simp [hc]))
      cases b with
      | nil => rfl
      | cons x xs =>
        simp only [List.nil_append, splitWhitespace.go, hb x (by simp), if_true]
        rw [blank xs (fun c hc => hb c (by simp [hc]))]
    | cons x xs ih =>
      intro cur
      simp only [List.cons_append, splitWhitespace.go, ih]
  have e2 : splitWhitespace s = splitWhitespace (a ++ (trim s ++ b)) := by
    congr 1
    rw [← List.append_assoc]; exact e
  rw [e2]
  show _ = splitWhitespace.go _ []
  rw [splitWs_lead _ _ ha]
  exact (tail b hb (trim s) []).symm

theorem parse_iff (s : Str) (v : Via) :
    Via.parse s = some v ↔ ∃ es, ViaText s v.transport v.sentBy es ∧ v.params = mapOf es := by
  have ctl : s.any (fun c => isControl c && c != '\t') = false ↔ ∀ c ∈ s, Control c → c = '\t' := by
    rw [List.any_eq_false]
    constructor
    · intro h c hc hcc
      have := h c hc
      rw [(ctl_iff c).mpr hcc] at this
      simpa using this
    · intro h c hc
      by_cases hcc : Control c
      · rw [h c hc hcc]; simp
      · have : isControl c = false := by
          cases hb : isControl c with
          | false => rfl
          | true => exact absurd ((ctl_iff c).mp hb) hcc
        rw [this]; simp
  constructor
  · intro h
    simp only [Via.parse] at h
    split at h
    · cases h
    · rename_i hc
      split at h
      · cases h
      · split at h
        · cases h
        · rename_i first parts hp
          split at h
          · rename_i proto sb hw
            split at h
            · rename_i name version tr hq
              split at h
              · cases h
              · rename_i h1
                split at h
                · cases h
                · rename_i h2
                  split at h
                  · cases h
                  · rename_i h3
                    split at h
                    · cases h
                    · rename_i h4
                      simp only [Option.map_eq_some_iff] at h
                      obtain ⟨ps, hps, rfl⟩ := h
                      obtain ⟨es, he, rfl⟩ := parseParams_sound parts [] [] ps .nil hps
                      simp only [Bool.not_eq_true', Bool.not_eq_false] at h1 h3 h4
                      simp only [ne_eq, Classical.not_not] at h2
                      subst h2
                      obtain ⟨g1, g2⟩ := (validSentBy_iff _).mp h4
                      refine ⟨es, ⟨ctl.mp (by simpa using hc), _, first, parts, proto, name, (strips_iff _ _ _).mpr rfl,
                        (pieces_iff _ _ _).mpr hp.symm, (words_iff _ _).mpr (by rw [← splitWs_trim]; exact hw),
                        (pieces_iff _ _ _).mpr hq.symm, (sameName_iff _ _).mpr h1, (validTransport_iff _).mp h3,
                        g1, g2, by simpa using he⟩, rfl⟩
            · cases h
          · cases h
  · rintro ⟨es, ⟨h1, t, first, parts, proto, scheme, h2, h3, h4, h5, h6, h7, h8, h9, h10⟩, hv⟩
    have e2 := (strips_iff _ _ _).mp h2
    have e3 := (pieces_iff _ _ _).mp h3
    have e4 := (words_iff _ _).mp h4
    have e5 := (pieces_iff _ _ _).mp h5
    have hne : t ≠ [] := by
      rintro rfl
      rw [splitChar] at e3
      simp only [List.cons.injEq] at e3
      obtain ⟨rfl, _⟩ := e3
      simp [splitWhitespace, splitWhitespace.go] at e4
    have e2' : stripBoth isBlank s = t := e2.symm
    simp only [Via.parse, ctl.mpr h1, Bool.false_eq_true, if_false, e2']
    rw [if_neg (by simpa using hne), ← e3]
    simp only
    rw [splitWs_trim, e4]
    simp only
    rw [← e5]
    simp only
    rw [if_neg (by rw [(sameName_iff _ _).mp h6]; simp), if_neg (by simp),
      if_neg (by rw [(validTransport_iff _).mpr h7]; simp), if_neg (by rw [(validSentBy_iff _).mpr ⟨h8, h9⟩]; simp),
      parseParams_complete h10]
    obtain ⟨a, b, c⟩ := v
    simp only at hv
    subst hv
    rfl

/-! ## Writing a value -/

/-- a parameter that reads back -/
def GoodP (e : Str × Option Str) : Prop :=
  Tok 64 e.1 ∧ lower e.1 = e.1 ∧ ∀ v, e.2 = some v → Value v ∧ Trimmed v ∧ ';' ∉ v

structure Good (v : Via) : Prop where
  tr : Tok 32 v.transport
  sb : ∃ h, SentBy v.sentBy h
  sbLen : utf8Len v.sentBy ≤ 256
  good : ∀ e ∈ v.params, GoodP e
  sorted : Sorted v.params
  few : v.params.length ≤ 20

theorem mapOf_sorted (ps : BMap (Option Str)) (h1 : ∀ e ∈ ps, lower e.1 = e.1) (h2 : Sorted ps) : mapOf ps = ps := by
  induction ps using snoc_ind with
  | nil => rfl
  | snoc ps e ih =>
    obtain ⟨g1, _, g2⟩ := List.pairwise_append.mp h2
    rw [mapOf_snoc, ih (fun x hx => h1 x (by simp [hx])) g1, h1 e (by simp)]
    exact insert_last ps e.1 e.2 (fun x hx => g2 x hx e (by simp))

theorem paramText_ne {e : Str × Option Str} (h : GoodP e) : paramText e ≠ [] := by
  obtain ⟨n, o⟩ := e
  have := h.1.1
  cases o with
  | none => exact this
  | some v => simp [paramText]

theorem paramText_trimmed {e : Str × Option Str} (he : GoodP e) : Trimmed (paramText e) := by
  obtain ⟨n, o⟩ := e
  have hn := tok_ws he.1
  cases o with
  | none => exact trimmed_of_all _ hn
  | some v =>
    have hv := (he.2.2 v rfl).2.1
    constructor
    · intro c hc
      have hn0 := he.1.1
      cases n with
      | nil => exact absurd rfl hn0
      | cons x xs =>
        simp only [paramText, List.cons_append, List.head?_cons, Option.some.injEq] at hc
        subst hc; exact hn x (by simp)
    · intro c hc
      cases v with
      | nil =>
        simp only [paramText, List.getLast?_append, List.getLast?_singleton, Option.some_or, Option.some.injEq] at hc
        subst hc; decide
      | cons x xs =>
        apply hv.2 c
        simpa [paramText, List.getLast?_append, List.getLast?_cons_cons] using hc

theorem paramText_not_mem {e : Str × Option Str} (h : GoodP e) : ';' ∉ paramText e := by
  obtain ⟨n, o⟩ := e
  have hn := tok_not_mem h.1 ';' (by decide)
  cases o with
  | none => exact hn
  | some v => simp [paramText, hn, (h.2.2 v rfl).2.2]

theorem strips_self {s : Str} (h : Trimmed s) : Strips isWs s s := (strips_trim s s).mpr (trim_of_trimmed s h).symm

theorem param_text {e : Str × Option Str} (h : GoodP e) : Param (paramText e) e.1 e.2 := by
  have ht := paramText_trimmed h
  obtain ⟨n, o⟩ := e
  cases o with
  | none => exact .flag (strips_self ht) (tok_not_mem h.1 '=' (by decide)) h.1
  | some v =>
    obtain ⟨h1, h2, _⟩ := h.2.2 v rfl
    exact .value (strips_self ht) (tok_not_mem h.1 '=' (by decide)) (strips_self (trimmed_of_all _ (tok_ws h.1)))
      (strips_self h2) h.1 h1

theorem params_text (ps : BMap (Option Str)) (h1 : ∀ e ∈ ps, GoodP e) (h2 : Sorted ps) (h3 : ps.length ≤ 20) :
    Params (ps.map paramText) ps := by
  induction ps using snoc_ind with
  | nil => exact .nil
  | snoc ps e ih =>
    obtain ⟨g1, _, g2⟩ := List.pairwise_append.mp h2
    simp only [List.length_append, List.length_singleton] at h3
    rw [List.map_append, List.map_singleton]
    refine .param (ih (fun x hx => h1 x (by simp [hx])) g1 (by omega)) (by omega) (param_text (h1 e (by simp))) ?_
    intro x hx hs
    have hx' := (h1 x (by simp [hx])).2.1
    have he' := (h1 e (by simp)).2.1
    have := g2 x hx e (by simp)
    have heq := (sameName_lower _ _).mp hs
    rw [hx', he'] at heq
    rw [heq, strLt_irrefl] at this
    cases this

theorem join_params (base : Str) : ∀ ps : BMap (Option Str), join ';' (base :: ps.map paramText) = base ++ renderParams ps
  | [] => by simp [join, renderParams]
  | e :: t => by
    rw [List.map_cons, join_cons _ _ _ (by simp), join_params (paramText e) t]
    obtain ⟨k, o⟩ := e
    cases o <;> simp [renderParams, paramText]

theorem getLast_append_ne {a b : Str} (h : b ≠ []) : (a ++ b).getLast? = b.getLast? := by
  cases b with
  | nil => exact absurd rfl h
  | cons x xs => simp [List.getLast?_append, List.getLast?_cons]

theorem renderParams_snoc (ps : BMap (Option Str)) (e : Str × Option Str) :
    renderParams (ps ++ [e]) = renderParams ps ++ ';' :: paramText e := by
  simp [renderParams_eq]

theorem value_ctl {e : Str × Option Str} (h : GoodP e) : ∀ c ∈ paramText e, ¬ Control c := by
  obtain ⟨n, o⟩ := e
  have hn : ∀ c ∈ n, ¬ Control c := fun c hc hcc => by
    have := (ctl_iff c).mpr hcc
    rw [token_control c ((tok_iff c).mpr (h.1.2.1 c hc))] at this; cases this
  cases o with
  | none => exact hn
  | some v =>
    intro c hc
    simp only [paramText, List.mem_append, List.mem_cons] at hc
    rcases hc with hc | rfl | hc
    · exact hn c hc
    · intro hc; exact absurd ((ctl_iff _).mpr hc) (by decide)
    · exact (h.2.2 v rfl).1.2 c hc

theorem proto_chars {tr : Str} (h : Tok 32 tr) : ∀ c ∈ "SIP/2.0/".toList ++ tr, c ∈ "SIP/2.0/".toList ∨ TokChar c := by
  intro c hc
  rcases List.mem_append.mp hc with hc | hc
  · exact Or.inl hc
  · exact Or.inr (h.2.1 c hc)

theorem reparse {v : Via} (h : Good v) : Via.parse v.show = some v := by
  rw [parse_iff]
  have hm := mapOf_sorted v.params (fun e he => (h.good e he).2.1) h.sorted
  refine ⟨v.params, ?_, hm.symm⟩
  obtain ⟨host, hsb⟩ := h.sb
  obtain ⟨sb1, sb2⟩ := sentBy_chars hsb
  have prot := proto_chars h.tr
  have hbase : v.show = ("SIP/2.0/".toList ++ v.transport ++ ' ' :: v.sentBy) ++ renderParams v.params := rfl
  have protWs : ∀ c ∈ "SIP/2.0/".toList ++ v.transport, isWs c = false := by
    intro c hc
    rcases prot c hc with hc | hc
    · exact (by decide : ∀ c ∈ "SIP/2.0/".toList, isWs c = false) c hc
    · exact token_ws c ((tok_iff c).mpr hc)
  have sbWs : ∀ c ∈ v.sentBy, isWs c = false := fun c hc => bracket_ws (sb2 c hc)
  refine ⟨?_, v.show, "SIP/2.0/".toList ++ v.transport ++ ' ' :: v.sentBy, v.params.map paramText,
    "SIP/2.0/".toList ++ v.transport, "SIP".toList, ?_, ?_, ?_, ?_, sameName_refl _, h.tr, h.sb, h.sbLen,
    params_text _ h.good h.sorted h.few⟩
  · intro c hc hcc
    exfalso
    have hcc' := (ctl_iff c).mpr hcc
    rw [hbase] at hc
    simp only [List.mem_append, List.mem_cons] at hc
    rcases hc with ((hc | hc) | rfl | hc) | hc
    · have := (by decide : ∀ c ∈ "SIP/2.0/".toList, isControl c = false) c hc
      rw [this] at hcc'; cases hcc'
    · rw [token_control c ((tok_iff c).mpr (h.tr.2.1 c hc))] at hcc'; cases hcc'
    · exact absurd hcc' (by decide)
    · rw [bracket_control (sb2 c hc)] at hcc'; cases hcc'
    · rw [renderParams_eq, List.mem_flatMap] at hc
      obtain ⟨e, he, hc⟩ := hc
      rcases List.mem_cons.mp hc with rfl | hc
      · exact absurd hcc' (by decide)
      · exact value_ctl (h.good e he) c hc hcc
  · refine ⟨[], [], by simp, by simp, by simp, ?_, ?_⟩
    · intro c hc
      have : v.show.head? = some 'S' := by rw [hbase]; rfl
      rw [this] at hc
      simp only [Option.some.injEq] at hc
      subst hc; decide
    · intro c hc
      have blank : ∀ c, isWs c = false → (c == ' ' || c == '\t') = false := by
        intro c hc
        cases h' : (c == ' ' || c == '\t') with
        | false => rfl
        | true =>
          simp only [Bool.or_eq_true, beq_iff_eq] at h'
          rcases h' with rfl | rfl <;> exact absurd hc (by decide)
      apply blank
      rw [hbase] at hc
      rcases List.eq_nil_or_concat v.params with he | ⟨ps, e, he⟩
      · rw [he] at hc
        simp only [renderParams, List.append_nil] at hc
        rw [show "SIP/2.0/".toList ++ v.transport ++ ' ' :: v.sentBy = ("SIP/2.0/".toList ++ v.transport ++ [' ']) ++ v.sentBy by simp,
          getLast_append_ne sb1] at hc
        exact sbWs c (List.mem_of_getLast? hc)
      · have hge := h.good e (by rw [he]; simp)
        rw [he, List.concat_eq_append, renderParams_snoc, ← List.append_assoc,
          show ∀ X : Str, X ++ ';' :: paramText e = (X ++ [';']) ++ paramText e by intro X; simp,
          getLast_append_ne (paramText_ne hge)] at hc
        exact (paramText_trimmed hge).2 c hc
  · refine ⟨by simp, by rw [join_params, hbase], ?_⟩
    intro p hp
    rcases List.mem_cons.mp hp with rfl | hp
    · intro hm
      simp only [List.mem_append, List.mem_cons] at hm
      rcases hm with (hm | hm) | hm | hm
      · exact absurd hm (by decide)
      · exact tok_not_mem h.tr ';' (by decide) hm
      · exact absurd hm (by decide)
      · rcases sb2 _ hm with hh | hh | hh
        · exact not_host ';' (by decide) (by decide) hh
        · exact absurd hh (by decide)
        · exact absurd hh (by decide)
    · obtain ⟨e, he, rfl⟩ := List.mem_map.mp hp
      exact paramText_not_mem (h.good e he)
  · have w2 : Words (' ' :: v.sentBy) [v.sentBy] := by
      have := Words.cons (lead := [' ']) (w := v.sentBy) (rest := []) (ws := []) (by decide) sb1 sbWs (by simp)
        (.nil (by simp))
      simpa using this
    have := Words.cons (lead := []) (w := "SIP/2.0/".toList ++ v.transport) (rest := ' ' :: v.sentBy) (by simp)
      (by simp) protWs (by intro c hc; simp only [List.head?_cons, Option.some.injEq] at hc; subst hc; decide) w2
    simpa using this
  · refine ⟨by simp, by simp [join], ?_⟩
    intro p hp
    simp only [List.mem_cons, List.not_mem_nil, or_false] at hp
    rcases hp with rfl | rfl | rfl
    · decide
    · decide
    · exact tok_not_mem h.tr '/' (by decide)

theorem mapOf_mem {es : List (Str × Option Str)} {e : Str × Option Str} (h : e ∈ mapOf es) :
    ∃ x ∈ es, e = (lower x.1, x.2) := by
  induction es using snoc_ind with
  | nil => simp [mapOf] at h
  | snoc es x ih =>
    rw [mapOf_snoc] at h
    rcases mem_insert h with rfl | h
    · exact ⟨x, by simp, rfl⟩
    · obtain ⟨y, hy, rfl⟩ := ih h
      exact ⟨y, by simp [hy], rfl⟩

theorem mapOf_isSorted (es : List (Str × Option Str)) : Sorted (mapOf es) := by
  induction es using snoc_ind with
  | nil => exact List.Pairwise.nil
  | snoc es x ih => rw [mapOf_snoc]; exact sorted_insert _ _ ih

theorem strips_mem {P : Char → Bool} {s t : Str} (h : Strips P s t) : ∀ c ∈ t, c ∈ s := by
  obtain ⟨a, b, rfl, _⟩ := h
  intro c hc; simp [hc]

theorem params_good {ps : List Str} {es : List (Str × Option Str)} (h : Params ps es) (hp : ∀ p ∈ ps, ';' ∉ p) :
    ∀ e ∈ es, GoodP (lower e.1, e.2) := by
  induction h with
  | nil => intro e he; cases he
  | blank _ _ _ ih => exact ih (fun p h => hp p (by simp [h]))
  | @param ps es p n x _ _ hx _ ih =>
    intro e he
    rcases List.mem_append.mp he with he | he
    · exact ih (fun p h => hp p (by simp [h])) e he
    · simp only [List.mem_singleton] at he
      subst he
      have hpp := hp p (by simp)
      cases hx with
      | flag h1 h2 h3 => exact ⟨tok_lower h3, lower_lower _, fun v hv => by cases hv⟩
      | value h1 h2 h3 h4 h5 h6 =>
        refine ⟨tok_lower h5, lower_lower _, fun v hv => ?_⟩
        simp only [Option.some.injEq] at hv
        subst hv
        refine ⟨h6, ?_, fun hm => hpp (strips_mem h1 _ ?_)⟩
        · have := (strips_trim _ _).mp h4
          rw [this]; exact trimmed_trim _
        · simp [strips_mem h4 _ hm]

theorem parse_good {s : Str} {v : Via} (h : Via.parse s = some v) : Good v := by
  obtain ⟨es, ⟨_, t, first, parts, proto, scheme, _, h3, _, _, _, h7, h8, h9, h10⟩, hv⟩ := (parse_iff s v).mp h
  have hp : ∀ p ∈ parts, ';' ∉ p := fun p hp => h3.2.2 p (by simp [hp])
  refine ⟨h7, h8, h9, ?_, by rw [hv]; exact mapOf_isSorted es, by rw [hv, (params_facts h10).2.2]; exact (params_facts h10).2.1⟩
  intro e he
  rw [hv] at he
  obtain ⟨x, hx, rfl⟩ := mapOf_mem he
  exact params_good h10 hp x hx

end Siphon.Via
