import Verif.Core.UriTextProps
/-!
# C130: the text of a tel URI, and of any URI
-/
namespace Siphon.UriText
open Siphon.TextSpec Siphon.HdrSpec Siphon.UriP
open Siphon.Auth (splitOnce_some_iff)

theorem digit_spec (c : Char) : Digit c ↔ isDigit c = true := (isDigit_iff c).symm

theorem sep_spec (c : Char) : c ∈ "-. ()".toList ↔ isVisualSep c = true := by
  have e : "-. ()".toList = ['-', '.', ' ', '(', ')'] := by decide +kernel
  rw [e]
  unfold isVisualSep
  simp only [List.mem_cons, List.not_mem_nil, or_false, Bool.or_eq_true, beq_iff_eq]
  constructor
  · rintro (h | h | h | h | h) <;> simp [h]
  · rintro ((((h | h) | h) | h) | h) <;> simp [h]

theorem telChar_control (c : Char) (h : Digit c ∨ c ∈ "-. ()*#ABCDabcd".toList) : isControl c = false := by
  rcases h with h | h
  · apply Bool.eq_false_iff.mpr
    rw [Ne, control_iff]
    unfold Digit at h
    omega
  · revert c
    decide +kernel

theorem number_iff (n : Str) : Number n ↔ validTelNumber n = true := by
  have hloc : ∀ c : Char, (Digit c ∨ c ∈ "-. ()*#ABCDabcd".toList) ↔
      (isDigit c || isVisualSep c || ['*', '#', 'A', 'B', 'C', 'D', 'a', 'b', 'c', 'd'].contains c) = true := by
    intro c
    have e : "-. ()*#ABCDabcd".toList = "-. ()".toList ++ ['*', '#', 'A', 'B', 'C', 'D', 'a', 'b', 'c', 'd'] := by decide +kernel
    rw [e, List.mem_append, sep_spec, digit_spec, Bool.or_eq_true, Bool.or_eq_true, List.contains_iff_mem, or_assoc]
  have hglob : ∀ c : Char, (Digit c ∨ c ∈ "-. ()".toList) ↔ (isDigit c || isVisualSep c) = true := by
    intro c
    rw [sep_spec, digit_spec, Bool.or_eq_true]
  have hplus : ¬ (Digit '+' ∨ '+' ∈ "-. ()*#ABCDabcd".toList) := by
    rw [hloc]; decide
  have hsub : ∀ c : Char, Digit c ∨ c ∈ "-. ()".toList → isControl c = false := by
    intro c h
    refine telChar_control c (h.imp id ?_)
    have e : "-. ()*#ABCDabcd".toList = "-. ()".toList ++ ['*', '#', 'A', 'B', 'C', 'D', 'a', 'b', 'c', 'd'] := by decide +kernel
    rw [e]
    exact fun h => List.mem_append_left _ h
  unfold Number validTelNumber MAX_TELEPHONE_NUMBER_LENGTH
  simp only [Bool.and_eq_true, decide_eq_true_eq, Bool.not_eq_true', List.isEmpty_eq_false_iff, List.any_eq_false]
  constructor
  · rintro ⟨h1, ⟨d, hd, hd'⟩, h3⟩
    have hne : n ≠ [] := by
      intro e
      rw [e] at hd
      cases hd
    refine ⟨⟨⟨hne, h1⟩, ?_⟩, ?_⟩
    · intro c hc
      rcases h3 with ⟨t, rfl, ht⟩ | h3
      · rcases List.mem_cons.mp hc with rfl | hc
        · decide
        · rw [hsub c (ht c hc)]; decide
      · rw [telChar_control c (h3 c hc)]; decide
    · split
      · rename_i t
        rcases h3 with ⟨t', e, ht⟩ | h3
        · cases e
          rw [Bool.and_eq_true, List.all_eq_true, List.any_eq_true]
          refine ⟨fun c hc => (hglob c).mp (ht c hc), ?_⟩
          rcases List.mem_cons.mp hd with rfl | hm
          · exact absurd ((digit_spec '+').mp hd') (by decide)
          · exact ⟨d, hm, (digit_spec d).mp hd'⟩
        · exact absurd (h3 '+' (by simp)) hplus
      · rename_i hne
        rcases h3 with ⟨t, e, _⟩ | h3
        · exact absurd e (hne t)
        · rw [Bool.and_eq_true, List.all_eq_true, List.any_eq_true]
          exact ⟨fun c hc => (hloc c).mp (h3 c hc), d, hd, (digit_spec d).mp hd'⟩
  · rintro ⟨⟨⟨h1, h2⟩, _⟩, h4⟩
    refine ⟨h2, ?_⟩
    split at h4
    · rename_i t _
      rw [Bool.and_eq_true, List.all_eq_true, List.any_eq_true] at h4
      obtain ⟨h5, d, hd, hd'⟩ := h4
      exact ⟨⟨d, by simp [hd], (digit_spec d).mpr hd'⟩, Or.inl ⟨t, rfl, fun c hc => (hglob c).mpr (h5 c hc)⟩⟩
    · rw [Bool.and_eq_true, List.all_eq_true, List.any_eq_true] at h4
      obtain ⟨h5, d, hd, hd'⟩ := h4
      exact ⟨⟨d, hd, (digit_spec d).mpr hd'⟩, Or.inr (fun c hc => (hloc c).mpr (h5 c hc))⟩

theorem label_iff (l : Str) : Label l ↔ validDomainLabel l = true := by
  unfold Label validDomainLabel
  simp only [Bool.and_eq_true, decide_eq_true_eq, Bool.not_eq_true', List.isEmpty_eq_false_iff, bne_iff_ne, List.all_eq_true,
    Bool.or_eq_true, beq_iff_eq, alnum_spec]
  constructor
  · rintro ⟨h1, h2, h3, h4, h5⟩; exact ⟨⟨⟨⟨h1, h2⟩, h3⟩, h4⟩, h5⟩
  · rintro ⟨⟨⟨⟨h1, h2⟩, h3⟩, h4⟩, h5⟩; exact ⟨h1, h2, h3, h4, h5⟩

theorem control_lower (c : Char) : isControl c.toLower = isControl c := by
  have h1 := control_iff c
  have h2 := control_iff c.toLower
  rw [toLower_toNat] at h2
  cases e1 : isControl c <;> cases e2 : isControl c.toLower <;> rw [e1] at h1 <;> rw [e2] at h2 <;> try rfl
  · simp only [true_iff, Bool.false_eq_true, false_iff] at h1 h2
    split at h2 <;> omega
  · simp only [true_iff, Bool.false_eq_true, false_iff] at h1 h2
    split at h2 <;> omega

theorem mem_join {c x : Char} : ∀ {ps : List Str}, x ∈ join c ps → x = c ∨ ∃ p ∈ ps, x ∈ p
  | [], h => by cases h
  | [p], h => Or.inr ⟨p, by simp, h⟩
  | p :: q :: ps, h => by
    simp only [join, List.mem_append, List.mem_cons] at h
    rcases h with h | h | h
    · exact Or.inr ⟨p, by simp, h⟩
    · exact Or.inl h
    · rcases mem_join h with h | ⟨r, hr, h⟩
      · exact Or.inl h
      · exact Or.inr ⟨r, List.mem_cons_of_mem _ hr, h⟩

theorem context_iff (x : Str) : Context x ↔ validPhoneContext x = true := by
  have hch : ∀ c : Char, (Digit c ∨ c ∈ "-.()ABCD*#".toList) ↔
      (isDigit c || ['-', '.', '(', ')', 'A', 'B', 'C', 'D', '*', '#'].contains c) = true := by
    intro c
    have e : "-.()ABCD*#".toList = ['-', '.', '(', ')', 'A', 'B', 'C', 'D', '*', '#'] := by decide +kernel
    rw [e, digit_spec, Bool.or_eq_true, List.contains_iff_mem]
  have hctl : ∀ c : Char, (Digit c ∨ c ∈ "-.()ABCD*#".toList) → isControl c = false := by
    intro c h
    rcases h with h | h
    · apply Bool.eq_false_iff.mpr
      rw [Ne, control_iff]
      unfold Digit at h
      omega
    · revert c; decide +kernel
  have hlab : ∀ ls : List Str, (∀ l ∈ ls, Label l) → Pieces '.' (x.map Char.toLower) ls → x ≠ [] ∧ (∀ t, x ≠ '+' :: t) ∧
      ∀ c ∈ x, isControl c = false := by
    intro ls hl hp
    obtain ⟨hne, hj, _⟩ := hp
    have hall : ∀ c ∈ x, c.toLower = '.' ∨ Alnum c.toLower ∨ c.toLower = '-' := by
      intro c hc
      have : c.toLower ∈ join '.' ls := by rw [← hj]; exact List.mem_map.mpr ⟨c, hc, rfl⟩
      rcases mem_join this with h | ⟨l, hl', h⟩
      · exact Or.inl h
      · exact Or.inr ((hl l hl').2.2.2.2 _ h)
    refine ⟨?_, ?_, ?_⟩
    · rintro rfl
      cases ls with
      | nil => exact hne rfl
      | cons l ls =>
        have h1 := (hl l (by simp)).1
        cases ls with
        | nil => exact h1 hj.symm
        | cons q ls => simp [join] at hj
    · rintro t rfl
      rcases hall '+' (by simp) with h | h | h
      · exact absurd h (by decide)
      · exact absurd ((alnum_spec _).mp h) (by decide)
      · exact absurd h (by decide)
    · intro c hc
      rw [← control_lower]
      rcases hall c hc with h | h | h
      · rw [h]; decide
      · apply Bool.eq_false_iff.mpr
        rw [Ne, control_iff]
        unfold Alnum at h
        omega
      · rw [h]; decide
  unfold Context validPhoneContext MAX_PHONE_CONTEXT_LENGTH
  simp only [Bool.and_eq_true, decide_eq_true_eq, Bool.not_eq_true', List.isEmpty_eq_false_iff, List.any_eq_false]
  constructor
  · rintro ⟨h1, ⟨t, rfl, ⟨d, hd, hd'⟩, ht⟩ | ⟨ls, hp, hl⟩⟩
    · refine ⟨⟨⟨by simp, h1⟩, ?_⟩, ?_⟩
      · intro c hc
        rcases List.mem_cons.mp hc with rfl | hc
        · decide
        · rw [hctl c (ht c hc)]; decide
      · simp only [Bool.and_eq_true, List.all_eq_true, List.any_eq_true]
        exact ⟨fun c hc => (hch c).mp (ht c hc), d, hd, (digit_spec d).mp hd'⟩
    · obtain ⟨h2, h3, h4⟩ := hlab ls hl hp
      refine ⟨⟨⟨h2, h1⟩, fun c hc => by rw [h4 c hc]; decide⟩, ?_⟩
      split
      · rename_i t; exact absurd rfl (h3 t)
      · have : splitChar '.' (lower x) = ls := ((pieces_iff _ _ _).mp hp).symm
        rw [this, List.all_eq_true]
        exact fun l hl' => (label_iff l).mp (hl l hl')
  · rintro ⟨⟨⟨h1, h2⟩, h3⟩, h4⟩
    refine ⟨h2, ?_⟩
    split at h4
    · rename_i t
      rw [Bool.and_eq_true, List.all_eq_true, List.any_eq_true] at h4
      obtain ⟨h5, d, hd, hd'⟩ := h4
      exact Or.inl ⟨t, rfl, ⟨d, hd, (digit_spec d).mpr hd'⟩, fun c hc => (hch c).mpr (h5 c hc)⟩
    · rw [List.all_eq_true] at h4
      exact Or.inr ⟨splitChar '.' (lower x), (pieces_iff _ _ _).mpr rfl, fun l hl => (label_iff l).mpr (h4 l hl)⟩

theorem telName_iff (n : Str) : TelName n ↔ validTelParamName n = true := by
  unfold TelName validTelParamName MAX_TEL_PARAM_NAME_LENGTH
  simp only [Bool.and_eq_true, decide_eq_true_eq, Bool.not_eq_true', List.any_eq_false, control_spec, List.isEmpty_eq_false_iff,
    Bool.or_eq_true, not_or, Bool.not_eq_true, beq_iff_eq]
  constructor
  · rintro ⟨h1, h2, h3⟩
    exact ⟨⟨h1, h2⟩, fun c hc => ⟨⟨⟨by simpa using (h3 c hc).1, (h3 c hc).2.1⟩, (h3 c hc).2.2.1⟩, (h3 c hc).2.2.2⟩⟩
  · rintro ⟨⟨h1, h2⟩, h3⟩
    exact ⟨h1, h2, fun c hc => ⟨by simpa using (h3 c hc).1.1.1, (h3 c hc).1.1.2, (h3 c hc).1.2, (h3 c hc).2⟩⟩

theorem telValue_iff (v : Str) : (utf8Len v ≤ 128 ∧ ∀ c ∈ v, ¬ Control c ∧ isWs c = false) ↔ validTelParamValue v = true := by
  unfold validTelParamValue MAX_TEL_PARAM_VALUE_LENGTH
  simp only [Bool.and_eq_true, decide_eq_true_eq, Bool.not_eq_true', List.any_eq_false, control_spec, Bool.or_eq_true, not_or,
    Bool.not_eq_true]

/-- One turn of the loop over the parameters of a tel URI. -/
def telStep (p : Str) : Option (Option (Str × Option Str)) :=
  if p.isEmpty then some none
  else if p.any isWs then none
  else
    match splitOnce '=' p with
    | some (k, v) =>
      if !validTelParamName k || !validTelParamValue v then none
      else if eqIgnoreCase k "phone-context".toList && !validPhoneContext v then none
      else some (some (k, some v))
    | none => if !validTelParamName p then none else some (some (p, none))

theorem telPiece_iff (p : Str) (o : Option (Str × Option Str)) : TelPiece p o ↔ telStep p = some o := by
  unfold telStep
  constructor
  · intro h
    cases h with
    | blank => rfl
    | flag h1 =>
      have hne : p.isEmpty = false := by
        cases p with
        | nil => exact absurd rfl h1.1
        | cons _ _ => rfl
      have hw : p.any isWs = false := by
        rw [List.any_eq_false]
        intro c hc; rw [(h1.2.2 c hc).2.1]; decide
      rw [hne, hw, (splitOnce_none_iff '=' p).mpr (fun hm => (h1.2.2 _ hm).2.2.2 rfl)]
      simp only [Bool.false_eq_true, if_false]
      rw [(telName_iff p).mp h1]
      rfl
    | @pair k v h1 h2 h3 h4 =>
      have hne : (k ++ '=' :: v).isEmpty = false := by cases k <;> rfl
      have hw : (k ++ '=' :: v).any isWs = false := by
        rw [List.any_eq_false]
        intro c hc
        rcases List.mem_append.mp hc with hc | hc
        · rw [(h1.2.2 c hc).2.1]; decide
        · rcases List.mem_cons.mp hc with rfl | hc
          · decide
          · rw [(h3 c hc).2]; decide
      rw [hne, hw, (splitOnce_some_iff '=' _ k v).mpr ⟨rfl, fun hm => (h1.2.2 _ hm).2.2.2 rfl⟩]
      simp only [Bool.false_eq_true, if_false]
      rw [(telName_iff k).mp h1, (telValue_iff v).mp ⟨h2, h3⟩, if_neg (by decide), if_neg]
      intro hc
      rw [Bool.and_eq_true, Bool.not_eq_true'] at hc
      have := (context_iff v).mp (h4 ((sameName_iff _ _).mpr hc.1))
      rw [this] at hc
      cases hc.2
  · intro h
    split at h
    · rename_i hb
      cases h
      rw [List.isEmpty_iff.mp hb]
      exact .blank
    · split at h
      · cases h
      · split at h
        · rename_i k v hs
          obtain ⟨e1, e2⟩ := (splitOnce_some_iff _ _ _ _).mp hs
          split at h
          · cases h
          · rename_i hv
            simp only [Bool.or_eq_true, Bool.not_eq_true', not_or, Bool.not_eq_false] at hv
            obtain ⟨h6, h7⟩ := (telValue_iff _).mpr hv.2
            split at h
            · cases h
            · rename_i hpc
              cases h
              rw [e1]
              refine .pair ((telName_iff _).mpr hv.1) h6 h7 ?_
              intro hsn
              rw [context_iff]
              cases hvc : validPhoneContext v with
              | true => rfl
              | false =>
                exfalso
                apply hpc
                rw [(sameName_iff _ _).mp hsn, hvc]
                rfl
        · rename_i hs
          split at h
          · cases h
          · rename_i hv
            cases h
            simp only [Bool.not_eq_true', Bool.not_eq_false] at hv
            exact .flag ((telName_iff _).mpr hv)

/-- The context after the pieces `ps`. -/
def ctxOf (ctx : Option Str) : List Str → Option Str
  | [] => ctx
  | p :: ps =>
    match telStep p with
    | some (some (k, some v)) => ctxOf (if eqIgnoreCase k "phone-context".toList then some v else ctx) ps
    | _ => ctxOf ctx ps

theorem telParams_collect : ∀ (ps : List Str) (acc : BMap (Option Str)) (ctx : Option Str),
    parseTelParams ps (acc, ctx) = (collect telStep 20 ps acc).map (fun m => (m, ctxOf ctx ps))
  | [], _, _ => rfl
  | p :: ps, acc, ctx => by
    have ih := telParams_collect ps
    rw [parseTelParams, collect, ctxOf]
    unfold MAX_TEL_PARAMETERS
    by_cases h0 : acc.length ≥ 20
    · rw [if_pos h0, if_pos h0]; rfl
    · rw [if_neg h0, if_neg h0, telStep]
      by_cases h1 : p.isEmpty = true
      · rw [if_pos h1, if_pos h1]; exact ih acc ctx
      · rw [if_neg h1, if_neg h1]
        by_cases h2 : p.any isWs = true
        · rw [if_pos h2, if_pos h2]; rfl
        · rw [if_neg h2, if_neg h2]
          cases splitOnce '=' p with
          | none =>
            simp only
            by_cases h3 : (!validTelParamName p) = true
            · rw [if_pos h3, if_pos h3]; rfl
            · rw [if_neg h3, if_neg h3]; exact ih _ _
          | some kv =>
            obtain ⟨k, v⟩ := kv
            simp only
            by_cases h3 : (!validTelParamName k || !validTelParamValue v) = true
            · rw [if_pos h3, if_pos h3]; rfl
            · rw [if_neg h3, if_neg h3]
              by_cases h4 : eqIgnoreCase k "phone-context".toList = true
              · rw [h4, if_pos rfl]
                cases h5 : validPhoneContext v with
                | true => simp only [Bool.not_true, Bool.and_false, Bool.false_eq_true, if_false, if_true]; rw [h4, if_pos rfl]; exact ih _ _
                | false => simp only [Bool.not_false, Bool.and_true, Bool.false_eq_true, if_false, if_true]; rfl
              · rw [if_neg h4]
                have h4' : eqIgnoreCase k "phone-context".toList = false := by
                  cases e : eqIgnoreCase k "phone-context".toList with
                  | true => exact absurd e h4
                  | false => rfl
                rw [h4']
                simp only [Bool.false_and, Bool.false_eq_true, if_false]
                rw [h4', if_neg (by decide)]
                exact ih _ _

theorem ctx_iff : ∀ {ps : List Str} {es : List (Str × Option Str)}, Collects TelPiece ps es → ∀ ctx x : Option Str,
    (ctxOf ctx ps = x ↔ (LastContext es x ∧ x ≠ none) ∨ (LastContext es none ∧ x = ctx))
  | [], _, h, ctx, x => by
    cases h
    constructor
    · intro e; exact Or.inr ⟨fun e he => by (cases he), e.symm⟩
    · rintro (⟨h1, h2⟩ | ⟨_, h2⟩)
      · cases x with
        | none => exact absurd rfl h2
        | some x => obtain ⟨a, k, b, e, _⟩ := h1; simp at e
      · exact h2.symm
  | p :: ps, es0, h, ctx, x => by
    cases h with
    | skip h1 h2 =>
      rw [ctxOf, (telPiece_iff _ _).mp h1]
      exact ctx_iff h2 ctx x
    | @take _ e _ es h1 h2 =>
      rw [ctxOf, (telPiece_iff _ _).mp h1]
      obtain ⟨k, v⟩ := e
      have cons_some : ∀ y, LastContext es (some y) → LastContext ((k, v) :: es) (some y) := by
        rintro y ⟨a, k', b, rfl, h3, h4⟩
        exact ⟨(k, v) :: a, k', b, rfl, h3, h4⟩
      have uncons : ∀ y, LastContext ((k, v) :: es) (some y) → LastContext es (some y) ∨
          (v = some y ∧ SameName k "phone-context".toList ∧ LastContext es none) := by
        rintro y ⟨a, k', b, e, h3, h4⟩
        cases a with
        | nil =>
          simp only [List.nil_append, List.cons.injEq, Prod.mk.injEq] at e
          obtain ⟨⟨rfl, rfl⟩, rfl⟩ := e
          exact Or.inr ⟨rfl, h3, h4⟩
        | cons z a =>
          simp only [List.cons_append, List.cons.injEq] at e
          exact Or.inl ⟨a, k', b, e.2, h3, h4⟩
      cases v with
      | none =>
        simp only
        rw [ctx_iff h2 ctx x]
        have hn : LastContext ((k, none) :: es) none ↔ LastContext es none := by
          constructor
          · intro h e he; exact h e (by simp [he])
          · intro h e he hne
            rcases List.mem_cons.mp he with rfl | he
            · exact absurd rfl hne
            · exact h e he hne
        rw [hn]
        constructor
        · rintro (⟨h3, h4⟩ | h3)
          · cases x with
            | none => exact absurd rfl h4
            | some y => exact Or.inl ⟨cons_some y h3, h4⟩
          · exact Or.inr h3
        · rintro (⟨h3, h4⟩ | h3)
          · cases x with
            | none => exact absurd rfl h4
            | some y =>
              rcases uncons y h3 with h5 | ⟨h5, _⟩
              · exact Or.inl ⟨h5, h4⟩
              · cases h5
          · exact Or.inr h3
      | some v =>
        simp only
        by_cases hpc : SameName k "phone-context".toList
        · rw [(sameName_iff _ _).mp hpc, if_pos rfl, ctx_iff h2 (some v) x]
          have hn : ¬ LastContext ((k, some v) :: es) none := fun h => h (k, some v) (by simp) (by simp) hpc
          constructor
          · rintro (⟨h3, h4⟩ | ⟨h3, rfl⟩)
            · cases x with
              | none => exact absurd rfl h4
              | some y => exact Or.inl ⟨cons_some y h3, h4⟩
            · exact Or.inl ⟨⟨[], k, es, rfl, hpc, h3⟩, by simp⟩
          · rintro (⟨h3, h4⟩ | ⟨h3, _⟩)
            · cases x with
              | none => exact absurd rfl h4
              | some y =>
                rcases uncons y h3 with h5 | ⟨h5, _, h6⟩
                · exact Or.inl ⟨h5, h4⟩
                · exact Or.inr ⟨h6, h5.symm⟩
            · exact absurd h3 hn
        · have hf : eqIgnoreCase k "phone-context".toList = false := by
            cases e : eqIgnoreCase k "phone-context".toList with
            | true => exact absurd ((sameName_iff _ _).mpr e) hpc
            | false => rfl
          rw [hf]
          simp only [Bool.false_eq_true, if_false]
          rw [ctx_iff h2 ctx x]
          have hn : LastContext ((k, some v) :: es) none ↔ LastContext es none := by
            constructor
            · intro h e he; exact h e (by simp [he])
            · intro h e he hne
              rcases List.mem_cons.mp he with rfl | he
              · exact hpc
              · exact h e he hne
          rw [hn]
          constructor
          · rintro (⟨h3, h4⟩ | h3)
            · cases x with
              | none => exact absurd rfl h4
              | some y => exact Or.inl ⟨cons_some y h3, h4⟩
            · exact Or.inr h3
          · rintro (⟨h3, h4⟩ | h3)
            · cases x with
              | none => exact absurd rfl h4
              | some y =>
                rcases uncons y h3 with h5 | ⟨_, h5, _⟩
                · exact Or.inl ⟨h5, h4⟩
                · exact absurd h5 hpc
            · exact Or.inr h3

theorem ctx_none_iff {ps : List Str} {es : List (Str × Option Str)} (h : Collects TelPiece ps es) (x : Option Str) :
    ctxOf none ps = x ↔ LastContext es x := by
  rw [ctx_iff h none x]
  cases x with
  | none => simp
  | some y => simp

theorem tel_prefix {t rest : Str} : stripPrefix "tel:".toList t = some rest ↔ t = "tel:".toList ++ rest := by
  unfold stripPrefix
  constructor
  · intro h
    split at h
    · rename_i hp
      obtain ⟨r, hr⟩ := List.isPrefixOf_iff_prefix.mp hp
      cases h
      rw [← hr, List.drop_left]
    · cases h
  · rintro rfl
    rw [if_pos (List.isPrefixOf_iff_prefix.mpr ⟨rest, rfl⟩), List.drop_left]

theorem drop_visual (n : Str) : dropVisual n = n.filter (fun c => c ∉ "-. ()".toList) := by
  unfold dropVisual
  congr 1
  funext c
  have := sep_spec c
  cases e : isVisualSep c with
  | true => rw [e] at this; simp only [Bool.not_true]; symm; rw [decide_eq_false_iff_not]; exact fun h => h (this.mpr rfl)
  | false => rw [e] at this; simp only [Bool.not_false]; symm; rw [decide_eq_true_iff]; exact fun h => by (cases this.mp h)

/-- A text is read as the tel URI `u` exactly if it says `u`. -/
theorem C130_tel (t : Str) (u : TelUri) : TelUri.parse t = some u ↔ TelUriText t u := by
  constructor
  · intro h
    unfold TelUri.parse at h
    split at h
    · cases h
    · rename_i rest hr
      have hr' := tel_prefix.mp hr
      split at h
      · cases h
      · rename_i base ps hps
        simp only at h
        split at h
        · cases h
        · rename_i hnum
          simp only [Bool.or_eq_true, not_or, Bool.not_eq_true', Bool.not_eq_false] at hnum
          split at h
          · cases h
          · rename_i params ctx hp
            rw [telParams_collect] at hp
            simp only [Option.map_eq_some_iff, Prod.mk.injEq] at hp
            obtain ⟨m, hm, rfl, hctx⟩ := hp
            have htab : Table TelPiece 20 ps m := (table_iff telPiece_iff 20 ps [] [] m table_start).mp hm
            obtain ⟨es, hes, h2, h3⟩ := htab
            have hlast := (ctx_none_iff hes ctx).mp hctx
            split at h
            · cases h
            · rename_i hl
              split at h
              · cases h
              · rename_i hg
                simp only [Option.some.injEq] at h
                subst h
                refine ⟨rfl, rest, base, ps, trim base, es, hr', (pieces_iff _ _ _).mpr hps.symm, (strips_trim _ _).mpr rfl,
                  (number_iff _).mpr hnum.2, ⟨es, hes, h2, h3⟩, hes, hlast, ?_⟩
                by_cases hplus : (trim base).head? = some '+'
                · left
                  have e : ((trim base).head? == some '+') = true := by rw [hplus]; rfl
                  rw [e] at hg hl
                  refine ⟨hplus, e, ?_, ?_⟩
                  · simpa using hg
                  · simp only [e, if_true]; exact drop_visual _
                · right
                  have e : ((trim base).head? == some '+') = false := by
                    cases e : ((trim base).head? == some '+') with
                    | true => exact absurd (beq_iff_eq.mp e) hplus
                    | false => rfl
                  rw [e] at hg hl
                  refine ⟨hplus, e, ?_, ?_⟩
                  · simpa using hl
                  · simp only [e, Bool.false_eq_true, if_false]
  · rintro ⟨hraw, rest, base, ps, num, es, ht, hps, hnum, hn, htab, hes, hlast, hcase⟩
    have hnumt := (strips_trim _ _).mp hnum
    unfold TelUri.parse
    rw [tel_prefix.mpr ht]
    simp only
    rw [← (pieces_iff _ _ _).mp hps]
    simp only
    rw [← hnumt]
    have hne : num.isEmpty = false := by
      obtain ⟨_, ⟨d, hd, _⟩, _⟩ := hn
      cases num with
      | nil => cases hd
      | cons _ _ => rfl
    rw [hne, (number_iff num).mp hn, telParams_collect, (table_iff telPiece_iff 20 ps [] [] _ table_start).mpr htab,
      (ctx_none_iff hes u.phoneContext).mpr hlast]
    simp only [Bool.not_true, Bool.or_self, Bool.false_eq_true, if_false, Option.map_some]
    obtain ⟨r, n, g, ctx, pa⟩ := u
    simp only at hraw hcase ⊢
    rcases hcase with ⟨h1, h2, h3, h4⟩ | ⟨h1, h2, h3, h4⟩
    · have e : (num.head? == some '+') = true := by rw [h1]; rfl
      rw [e, h3]
      simp only [Bool.not_true, Bool.false_and, Bool.false_eq_true, if_false, Option.isSome_none, Bool.and_false, if_true,
        Option.some.injEq]
      rw [h2, h4, hraw, drop_visual]
    · have e : (num.head? == some '+') = false := by
        cases e : (num.head? == some '+') with
        | true => exact absurd (beq_iff_eq.mp e) h1
        | false => rfl
      rw [e]
      cases ctx with
      | none => exact absurd rfl h3
      | some x =>
        simp only [Bool.not_false, Bool.true_and, Option.isNone_some, Bool.false_eq_true, if_false, Bool.false_and,
          Option.some.injEq]
        rw [h2, h4, hraw]

theorem absolute_iff (t s : Str) (hctl : ∀ c ∈ t, isControl c = false) : parseAbsolute t = some s ↔ AbsoluteText t s := by
  have hch : ∀ c : Char, (Alnum c ∨ c ∈ "+-.".toList) ↔ (isAlnum c || c == '+' || c == '-' || c == '.') = true := by
    intro c
    have e : "+-.".toList = ['+', '-', '.'] := by decide +kernel
    rw [e, alnum_spec]
    simp only [List.mem_cons, List.not_mem_nil, or_false, Bool.or_eq_true, beq_iff_eq]
    constructor
    · rintro (h | h | h | h) <;> simp [h]
    · rintro (((h | h) | h) | h) <;> simp [h]
  have hal : ∀ c : Char, ((65 ≤ c.toNat ∧ c.toNat ≤ 90) ∨ (97 ≤ c.toNat ∧ c.toNat ≤ 122)) ↔ isAlpha c = true := by
    intro c
    unfold isAlpha
    simp only [Bool.or_eq_true, Bool.and_eq_true, decide_eq_true_eq, char_le_iff]
    simp only [Char.reduceToNat]
    omega
  have hnc : ∀ x : Str, (∀ c ∈ x, Alnum c ∨ c ∈ "+-.".toList) → ':' ∉ x := by
    intro x hx hm
    exact absurd ((hch ':').mp (hx ':' hm)) (by decide)
  unfold parseAbsolute AbsoluteText MAX_ABSOLUTE_URI_LENGTH
  constructor
  · intro h
    split at h
    · cases h
    · rename_i hlen
      split at h
      · rename_i hv
        cases h
        refine ⟨by omega, (strips_trim _ _).mpr rfl, ?_⟩
        unfold validAbsolute at hv
        split at hv
        · cases hv
        · rename_i c t' e
          rw [Bool.and_eq_true] at hv
          obtain ⟨hc, hv⟩ := hv
          split at hv
          · rename_i scheme rest hs
            obtain ⟨e1, e2⟩ := (splitOnce_some_iff _ _ _ _).mp hs
            simp only [Bool.and_eq_true, List.all_eq_true, Bool.not_eq_true', List.isEmpty_eq_false_iff] at hv
            exact ⟨c, scheme, rest, by rw [e, e1], (hal c).mpr hc, fun x hx => (hch x).mpr (hv.1.1 x hx), hv.1.2⟩
          · cases hv
      · cases h
  · rintro ⟨hlen, hs, c, scheme, rest, e, hc, hscheme, hrest⟩
    have hst := (strips_trim _ _).mp hs
    rw [if_neg (by omega), ← hst, if_pos]
    rw [e]
    unfold validAbsolute
    simp only
    rw [(hal c).mp hc, (splitOnce_some_iff ':' _ scheme rest).mpr ⟨rfl, hnc _ hscheme⟩]
    simp only [Bool.true_and, Bool.and_eq_true, List.all_eq_true, Bool.not_eq_true', List.isEmpty_eq_false_iff, List.any_eq_false]
    refine ⟨⟨fun x hx => (hch x).mp (hscheme x hx), hrest⟩, ?_⟩
    intro x hx
    have hxt : x ∈ t := mem_of_mem_trim (by rw [← hst, e]; simp [hx])
    rw [hctl x hxt]
    decide

/-- A text is read as the URI `x` exactly if it says `x`. -/
theorem C130_uri (t : Str) (x : Uri) : Uri.parse t = some x ↔ UriText t x := by
  have hpre : ∀ p : Str, p.isPrefixOf t = true ↔ p <+: t := fun p => List.isPrefixOf_iff_prefix
  have tel_sip : ∀ p, "tel:".toList <+: t → p = "sip:".toList ∨ p = "sips:".toList → ¬ p <+: t := by
    rintro p ⟨a, rfl⟩ hp ⟨b, hb⟩
    have h1 := congrArg List.head? hb
    rcases hp with rfl | rfl
    · revert h1; simp
    · revert h1; simp
  unfold Uri.parse UriText
  by_cases hctl : t.any isControl = true
  · rw [if_pos hctl]
    constructor
    · intro h; cases h
    · rintro ⟨h, _⟩
      obtain ⟨c, hc, hcc⟩ := List.any_eq_true.mp hctl
      exact absurd ((control_spec c).mpr hcc) (h c hc)
  · have hc' : ∀ c ∈ t, ¬ Control c := by
      intro c hc hcc
      exact hctl (List.any_eq_true.mpr ⟨c, hc, (control_spec c).mp hcc⟩)
    have hc'' : ∀ c ∈ t, isControl c = false := by
      intro c hc
      cases e : isControl c with
      | true => exact absurd ((control_spec c).mpr e) (hc' c hc)
      | false => rfl
    rw [if_neg hctl]
    by_cases htel : "tel:".toList.isPrefixOf t = true
    · rw [if_pos htel]
      have htel' := (hpre _).mp htel
      cases x with
      | tel u =>
        simp only [Option.map_eq_some_iff, Uri.tel.injEq, exists_eq_right]
        rw [C130_tel]
        exact ⟨fun h => ⟨hc', h⟩, fun h => h.2⟩
      | sip u =>
        simp only [Option.map_eq_some_iff, reduceCtorEq, and_false, exists_false, false_iff]
        rintro ⟨_, h | h, _⟩
        · exact tel_sip _ htel' (Or.inl rfl) h
        · exact tel_sip _ htel' (Or.inr rfl) h
      | absolute s =>
        simp only [Option.map_eq_some_iff, reduceCtorEq, and_false, exists_false, false_iff]
        rintro ⟨_, h, _⟩
        exact h htel'
    · rw [if_neg htel]
      have htel' : ¬ "tel:".toList <+: t := fun h => htel ((hpre _).mpr h)
      have nottel : ∀ u, ¬ TelUriText t u := by
        rintro u ⟨_, rest, _, _, _, _, h, _⟩
        exact htel' ⟨rest, h.symm⟩
      by_cases hsip : ("sip:".toList.isPrefixOf t || "sips:".toList.isPrefixOf t) = true
      · rw [if_pos hsip]
        have hsip' : "sip:".toList <+: t ∨ "sips:".toList <+: t := by
          rw [Bool.or_eq_true, hpre, hpre] at hsip; exact hsip
        cases x with
        | tel u =>
          simp only [Option.map_eq_some_iff, reduceCtorEq, and_false, exists_false, false_iff]
          exact fun h => nottel u h.2
        | sip u =>
          simp only [Option.map_eq_some_iff, Uri.sip.injEq, exists_eq_right]
          rw [C130_sip]
          exact ⟨fun h => ⟨hc', hsip', h⟩, fun h => h.2.2⟩
        | absolute s =>
          simp only [Option.map_eq_some_iff, reduceCtorEq, and_false, exists_false, false_iff]
          rintro ⟨_, _, h1, h2, _⟩
          exact hsip'.elim h1 h2
      · rw [if_neg hsip]
        have hsip' : ¬ "sip:".toList <+: t ∧ ¬ "sips:".toList <+: t := by
          rw [Bool.or_eq_true, hpre, hpre, not_or] at hsip; exact hsip
        cases x with
        | tel u =>
          simp only [Option.map_eq_some_iff, reduceCtorEq, and_false, exists_false, false_iff]
          exact fun h => nottel u h.2
        | sip u =>
          simp only [Option.map_eq_some_iff, reduceCtorEq, and_false, exists_false, false_iff]
          exact fun h => h.2.1.elim hsip'.1 hsip'.2
        | absolute s =>
          simp only [Option.map_eq_some_iff, Uri.absolute.injEq, exists_eq_right]
          rw [absolute_iff t s hc'']
          exact ⟨fun h => ⟨hc', htel', hsip'.1, hsip'.2, h⟩, fun h => h.2.2.2.2⟩

end Siphon.UriText
