import Verif.Prio.Spec
import Verif.Base.Strip
import Verif.Base.CharLemmas
import Verif.Core.HeadersProps
import Verif.Auth.Lemmas
import Verif.Reason.PropsText
/-!
# C141: priorities, Refer-Sub and entity tags
-/
namespace Siphon.Prio
open TextSpec HdrSpec Spec

/-! ## Priority -/

theorem priorityChar_iff (c : Char) : priorityChar c = true ↔ TokenChar c := by
  rw [← isHeaderNameChar_iff]
  unfold priorityChar isHeaderNameChar
  rw [List.contains_eq_mem]

theorem validPriority_iff (s : Str) : validPriority s = true ↔ Token s ∧ utf8Len s ≤ 32 := by
  unfold validPriority Token MAX_PRIORITY_LENGTH
  simp only [Bool.and_eq_true, Bool.not_eq_true', List.isEmpty_eq_false_iff, List.any_eq_false, List.all_eq_true,
    decide_eq_false_iff_not, Nat.not_lt, priorityChar_iff]
  constructor
  · rintro ⟨⟨⟨h1, h2⟩, _⟩, h4⟩; exact ⟨⟨h1, h4⟩, h2⟩
  · rintro ⟨⟨h1, h4⟩, h2⟩
    exact ⟨⟨⟨h1, h2⟩, fun c hc => by rw [tokenChar_not_control c (h4 c hc)]; simp⟩, h4⟩

theorem same_lower (t w : Str) (hw : lower w = w) : SameName t w ↔ lower t = w := by
  rw [sameName_iff]
  unfold eqIgnoreCase
  rw [beq_iff_eq, hw]

/-- **C141**: a text is read as a priority exactly if it says it. -/
theorem C141_priority (t : Str) (p : Priority) : Priority.parse t = some p ↔ Says t p := by
  have e1 := same_lower t "emergency".toList (by decide)
  have e2 := same_lower t "urgent".toList (by decide)
  have e3 := same_lower t "normal".toList (by decide)
  have e4 := same_lower t "non-urgent".toList (by decide)
  constructor
  · intro h
    unfold Priority.parse at h
    split at h
    · cases h; exact .emergency (e1.mpr ‹_›)
    · split at h
      · cases h; exact .urgent (e2.mpr ‹_›)
      · split at h
        · cases h; exact .normal (e3.mpr ‹_›)
        · split at h
          · cases h; exact .nonUrgent (e4.mpr ‹_›)
          · split at h
            · rename_i n1 n2 n3 n4 hv
              cases h
              obtain ⟨h1, h2⟩ := (validPriority_iff t).mp hv
              refine .other ?_ h1 h2
              intro w hw
              simp only [List.mem_cons, List.not_mem_nil, or_false] at hw
              rcases hw with rfl | rfl | rfl | rfl
              · exact fun h => n1 (e1.mp h)
              · exact fun h => n2 (e2.mp h)
              · exact fun h => n3 (e3.mp h)
              · exact fun h => n4 (e4.mp h)
            · cases h
  · intro h
    unfold Priority.parse
    cases h with
    | emergency h => rw [e1.mp h]; rfl
    | urgent h => rw [e2.mp h]; rfl
    | normal h => rw [e3.mp h]; rfl
    | nonUrgent h => rw [e4.mp h]; rfl
    | other hn h1 h2 =>
      rw [if_neg (fun h => hn "emergency" (by simp) (e1.mpr h)), if_neg (fun h => hn "urgent" (by simp) (e2.mpr h)),
        if_neg (fun h => hn "normal" (by simp) (e3.mpr h)), if_neg (fun h => hn "non-urgent" (by simp) (e4.mpr h)),
        if_pos ((validPriority_iff t).mpr ⟨h1, h2⟩)]
      rfl

theorem token_lower {c : Char} (h : TokenChar c) : TokenChar c.toLower := by
  rw [← isHeaderNameChar_iff] at h ⊢
  unfold isHeaderNameChar at h ⊢
  simp [isAlnum_iff, char_eq_iff, toLower_toNat] at h ⊢
  split <;> omega

/-- **C141**: a priority that was read is written as a text that is read as the same, and the four words are ordered by their urgency;
no other priority has a place in this order. -/
theorem C141_priority_written {t : Str} {p : Priority} (h : Priority.parse t = some p) :
    Priority.parse p.text = some p ∧ SameName p.text t ∧
    (∀ n, p.level = some n ↔ ∃ w, (w, n) ∈ [("non-urgent", 0), ("normal", 1), ("urgent", 2), ("emergency", 3)] ∧ SameName t w.toList) := by
  have key : ∀ w : Str, lower w = w → lower t = w → SameName w t := fun w hw ht => by
    rw [sameName_iff]; unfold eqIgnoreCase; rw [beq_iff_eq, ht, hw]
  have lev : ∀ n, (∃ w : String, (w, n) ∈ [("non-urgent", 0), ("normal", 1), ("urgent", 2), ("emergency", 3)] ∧ SameName t w.toList) ↔
      (lower t = "non-urgent".toList ∧ n = 0) ∨ (lower t = "normal".toList ∧ n = 1) ∨ (lower t = "urgent".toList ∧ n = 2) ∨
      (lower t = "emergency".toList ∧ n = 3) := by
    intro n
    constructor
    · rintro ⟨w, hw, hs⟩
      simp only [List.mem_cons, Prod.mk.injEq, List.not_mem_nil, or_false] at hw
      rcases hw with ⟨rfl, rfl⟩ | ⟨rfl, rfl⟩ | ⟨rfl, rfl⟩ | ⟨rfl, rfl⟩ <;> rw [same_lower _ _ (by decide)] at hs <;> simp [hs]
    · rintro (⟨h, rfl⟩ | ⟨h, rfl⟩ | ⟨h, rfl⟩ | ⟨h, rfl⟩)
      · exact ⟨"non-urgent", by simp, (same_lower _ _ (by decide)).mpr h⟩
      · exact ⟨"normal", by simp, (same_lower _ _ (by decide)).mpr h⟩
      · exact ⟨"urgent", by simp, (same_lower _ _ (by decide)).mpr h⟩
      · exact ⟨"emergency", by simp, (same_lower _ _ (by decide)).mpr h⟩
  unfold Priority.parse at h
  split at h
  · rename_i e
    cases h
    refine ⟨by decide +kernel, key _ (by decide) e, fun n => ?_⟩
    rw [lev, e]
    constructor
    · intro h; cases h; simp
    · rintro (⟨h, rfl⟩ | ⟨h, rfl⟩ | ⟨h, rfl⟩ | ⟨h, rfl⟩) <;> first | rfl | exact absurd h (by decide)
  · split at h
    · rename_i e
      cases h
      refine ⟨by decide +kernel, key _ (by decide) e, fun n => ?_⟩
      rw [lev, e]
      constructor
      · intro h; cases h; simp
      · rintro (⟨h, rfl⟩ | ⟨h, rfl⟩ | ⟨h, rfl⟩ | ⟨h, rfl⟩) <;> first | rfl | exact absurd h (by decide)
    · split at h
      · rename_i e
        cases h
        refine ⟨by decide +kernel, key _ (by decide) e, fun n => ?_⟩
        rw [lev, e]
        constructor
        · intro h; cases h; simp
        · rintro (⟨h, rfl⟩ | ⟨h, rfl⟩ | ⟨h, rfl⟩ | ⟨h, rfl⟩) <;> first | rfl | exact absurd h (by decide)
      · split at h
        · rename_i e
          cases h
          refine ⟨by decide +kernel, key _ (by decide) e, fun n => ?_⟩
          rw [lev, e]
          constructor
          · intro h; cases h; simp
          · rintro (⟨h, rfl⟩ | ⟨h, rfl⟩ | ⟨h, rfl⟩ | ⟨h, rfl⟩) <;> first | rfl | exact absurd h (by decide)
        · split at h
          · rename_i n1 n2 n3 n4 hv
            cases h
            refine ⟨?_, key _ (lower_lower t) rfl, fun n => ?_⟩
            · have hv' : validPriority (lower t) = true := by
                obtain ⟨⟨h1, h2⟩, h3⟩ := (validPriority_iff t).mp hv
                refine (validPriority_iff _).mpr ⟨⟨by simpa [lower] using h1, ?_⟩, by rw [utf8Len_lower]; exact h3⟩
                intro c hc
                obtain ⟨d, hd, rfl⟩ := List.mem_map.mp hc
                exact token_lower (h2 d hd)
              unfold Priority.parse Priority.text
              simp only [lower_lower]
              rw [if_neg n1, if_neg n2, if_neg n3, if_neg n4, if_pos hv']
            · rw [lev]
              constructor
              · intro h; cases h
              · rintro (⟨h, _⟩ | ⟨h, _⟩ | ⟨h, _⟩ | ⟨h, _⟩)
                · exact absurd h n4
                · exact absurd h n3
                · exact absurd h n2
                · exact absurd h n1
          · cases h

/-- Words and a token. -/
example : Says "URGENT".toList .urgent ∧ Says "High^1".toList (.unknown "high^1".toList) ∧ ∀ p, ¬ Says "a b".toList p :=
  ⟨(C141_priority _ _).mp (by decide +kernel), (C141_priority _ _).mp (by decide +kernel), fun p h => by
    have := (C141_priority _ _).mpr h
    rw [show Priority.parse "a b".toList = none by decide +kernel] at this
    cases this⟩

/-! ## Resource-Priority -/

theorem validNs_iff (s : Str) : validNs s = true ↔ Name s := by
  unfold validNs Name MAX_NAMESPACE_LENGTH
  simp only [Bool.and_eq_true, Bool.not_eq_true', List.isEmpty_eq_false_iff, List.any_eq_false, Bool.or_eq_true, not_or,
    decide_eq_false_iff_not, Nat.not_lt, and_assoc, Bool.not_eq_true]

theorem validRp_iff (s : Str) : validRp s = true ↔ Name s := validNs_iff s

theorem new_iff (n p : Str) (v : Value) : Value.new n p = some v ↔ Name n ∧ Name p ∧ v = ⟨n, p⟩ := by
  unfold Value.new
  rw [← validNs_iff n, ← validRp_iff p]
  cases validNs n <;> cases validRp p <;> simp [eq_comm]

theorem one_iff {t : Str} (ht : trim t = t) (v : Value) : Value.parse t = some v ↔ One t v := by
  unfold Value.parse
  rw [ht]
  constructor
  · intro h
    cases hs : splitOnce '.' t with
    | none => rw [hs] at h; cases h
    | some q =>
      obtain ⟨n, p⟩ := q
      rw [hs] at h
      obtain ⟨rfl, hn⟩ := (Auth.splitOnce_some_iff _ _ _ _).mp hs
      obtain ⟨h1, h2, rfl⟩ := (new_iff n p v).mp h
      exact .mk hn h1 h2
  · rintro ⟨hn, h1, h2⟩
    rw [(Auth.splitOnce_some_iff _ _ _ _).mpr ⟨rfl, hn⟩]
    exact (new_iff _ _ _).mpr ⟨h1, h2, rfl⟩

theorem trim_twice (s : Str) : trim (trim s) = trim s := trim_of_trimmed _ (UriP.trimmed_trim s)

theorem parseParts_iff (ps : List Str) (acc vs : List Value) (ha : acc.length ≤ 10) :
    parseParts ps acc = some vs ↔ ∃ l, vs = acc ++ l ∧ Values ps l ∧ vs.length ≤ 10 := by
  induction ps generalizing acc with
  | nil =>
    simp only [parseParts, Option.some.injEq]
    constructor
    · rintro rfl; exact ⟨[], by simp, .nil, ha⟩
    · rintro ⟨l, rfl, hl, _⟩; cases hl; simp
  | cons p ps ih =>
    unfold parseParts
    simp only [List.isEmpty_iff]
    split
    · rename_i he
      rw [ih _ ha]
      constructor
      · rintro ⟨l, h1, h2, h3⟩
        exact ⟨l, h1, .blank ((strips_trim _ _).mpr he.symm) h2, h3⟩
      · rintro ⟨l, h1, h2, h3⟩
        cases h2 with
        | blank _ h2 => exact ⟨l, h1, h2, h3⟩
        | value hs hne _ _ => exact absurd ((strips_trim _ _).mp hs ▸ he) hne
    · rename_i hne
      have nb : ∀ l, Values (p :: ps) l ↔ ∃ v l', l = v :: l' ∧ One (trim p) v ∧ Values ps l' := by
        intro l
        constructor
        · intro h
          cases h with
          | blank hs _ => exact absurd ((strips_trim _ _).mp hs).symm hne
          | value hs _ ho hl => exact ⟨_, _, rfl, (strips_trim _ _).mp hs ▸ ho, hl⟩
        · rintro ⟨v, l', rfl, ho, hl⟩
          exact .value ((strips_trim _ _).mpr rfl) hne ho hl
      have hM : MAX_VALUES = 10 := rfl
      by_cases hfull : acc.length ≥ MAX_VALUES
      · rw [if_pos hfull]
        constructor
        · intro h; cases h
        · rintro ⟨l, rfl, hl, hlen⟩
          obtain ⟨v, l', rfl, _⟩ := (nb l).mp hl
          simp only [List.length_append, List.length_cons] at hlen
          omega
      · rw [if_neg hfull]
        cases hv : Value.parse (trim p) with
        | none =>
          simp only [reduceCtorEq, false_iff]
          rintro ⟨l, rfl, hl, hlen⟩
          obtain ⟨v, l', rfl, ho, _⟩ := (nb l).mp hl
          rw [(one_iff (trim_twice p) v).mpr ho] at hv
          cases hv
        | some v =>
          simp only
          rw [ih _ (by simp; omega)]
          have ho := (one_iff (trim_twice p) v).mp hv
          constructor
          · rintro ⟨l, rfl, hl, hlen⟩
            exact ⟨v :: l, by simp, (nb _).mpr ⟨v, l, rfl, ho, hl⟩, hlen⟩
          · rintro ⟨l, rfl, hl, hlen⟩
            obtain ⟨w, l', rfl, ho', hl'⟩ := (nb l).mp hl
            have e := (one_iff (trim_twice p) w).mpr ho'
            rw [hv] at e
            cases e
            exact ⟨l', by simp, hl', hlen⟩

/-- **C141**: a text is read as a Resource-Priority exactly if it says these values. -/
theorem C141_resource (t : Str) (vs : List Value) : parseHeader t = some vs ↔ Reads t vs := by
  unfold parseHeader Reads MAX_PARSE_INPUT
  split
  · rename_i h
    constructor
    · intro h; cases h
    · rintro ⟨h', _⟩; omega
  · rename_i h
    rw [parseParts_iff _ _ _ (by simp)]
    constructor
    · rintro ⟨l, rfl, hl, hlen⟩
      exact ⟨by omega, hlen, _, (pieces_iff _ _ _).mpr rfl, by simpa using hl⟩
    · rintro ⟨_, hlen, ps, hp, hl⟩
      rw [← (pieces_iff _ _ _).mp hp]
      exact ⟨vs, rfl, hl, hlen⟩

/-- **C141**: the API makes exactly the values of two names, and takes up to ten of them, in order. -/
theorem C141_resource_made (n p : Str) (v : Value) (vs ws : List Value) :
    (Value.new n p = some v ↔ Name n ∧ Name p ∧ v = ⟨n, p⟩) ∧
    (addValue vs v = some ws ↔ vs.length < 10 ∧ ws = vs ++ [v]) := by
  refine ⟨new_iff n p v, ?_⟩
  unfold addValue MAX_VALUES
  split
  · simp; omega
  · simp only [Option.some.injEq]
    constructor
    · rintro rfl; exact ⟨by omega, rfl⟩
    · rintro ⟨_, rfl⟩; rfl

theorem name_trimmed {s : Str} (h : Name s) : ∀ c ∈ s, isWs c = false := fun c hc => (h.2.2 c hc).2

theorem text_plain {v : Value} (h : Plain v) : v.text ≠ [] ∧ ',' ∉ v.text ∧ (∀ c ∈ v.text, isWs c = false) ∧ One v.text v := by
  obtain ⟨h1, h2, h3, h4, h5⟩ := h
  unfold Value.text
  refine ⟨by simp, by simp [h4, h5], ?_, .mk h3 h1 h2⟩
  intro c hc
  rcases List.mem_append.mp hc with hc | hc
  · exact name_trimmed h1 c hc
  · rcases List.mem_cons.mp hc with rfl | hc
    · decide
    · exact name_trimmed h2 c hc

theorem strips_lead (l s : Str) (hl : ∀ c ∈ l, isWs c = true) (hs : ∀ c ∈ s, isWs c = false) : Strips isWs (l ++ s) s :=
  ⟨l, [], by simp, hl, by simp, fun c hc => hs c (List.mem_of_mem_head? hc), fun c hc => hs c (List.mem_of_mem_getLast? hc)⟩

/-- The pieces of a written header, with what is written before the first. -/
theorem pieces_text (l : Str) (hl : ∀ c ∈ l, isWs c = true) : ∀ (vs : List Value), vs ≠ [] → (∀ v ∈ vs, Plain v) →
    ∃ ps, Pieces ',' (l ++ headerText vs) ps ∧ Values ps vs := by
  have hlc : ',' ∉ l := fun h => by have := hl _ h; revert this; decide
  intro vs
  induction vs generalizing l with
  | nil => intro h; exact absurd rfl h
  | cons v vs ih =>
    intro _ hp
    obtain ⟨h1, h2, h3, h4⟩ := text_plain (hp v (by simp))
    cases vs with
    | nil =>
      exact ⟨[l ++ v.text], ⟨by simp, by simp [join, headerText], by simp [hlc, h2]⟩, .value (strips_lead l _ hl h3) h1 h4 .nil⟩
    | cons w ws =>
      obtain ⟨ps, ⟨q1, q2, q3⟩, hv⟩ := ih [' '] (by decide) (by decide) (by simp) (fun x hx => hp x (List.mem_cons_of_mem _ hx))
      refine ⟨(l ++ v.text) :: ps, ⟨by simp, ?_, ?_⟩, .value (strips_lead l _ hl h3) h1 h4 hv⟩
      · cases ps with
        | nil => exact absurd rfl q1
        | cons p ps =>
          simp only [join, headerText]
          rw [← q2]
          simp
      · intro p hp'
        rcases List.mem_cons.mp hp' with rfl | hp'
        · simp [hlc, h2]
        · exact q3 p hp'

/-- **C141** (partial): values that are plain are read back as they were, in order.

Missing: names with a comma, namespaces with a dot and texts of more than 512 bytes; the theorems below show that the claim fails there. -/
theorem C141_resource_roundtrip_partial {vs : List Value} (hp : ∀ v ∈ vs, Plain v) (hn : vs.length ≤ 10)
    (hl : utf8Len (headerText vs) ≤ 512) : parseHeader (headerText vs) = some vs := by
  rw [C141_resource]
  refine ⟨hl, hn, ?_⟩
  cases vs with
  | nil => exact ⟨[[]], ⟨by simp, rfl, by simp⟩, .blank ⟨[], [], rfl, by simp, by simp, by simp, by simp⟩ .nil⟩
  | cons v vs => simpa using pieces_text [] (by simp) (v :: vs) (by simp) hp

/-- What is read from a text is plain (so it can be written and read again). -/
theorem C141_resource_read_plain {t : Str} {vs : List Value} (h : parseHeader t = some vs) : vs.length ≤ 10 ∧ ∀ v ∈ vs, Plain v := by
  obtain ⟨_, hn, ps, ⟨hne0, hj, hc⟩, hv⟩ := (C141_resource _ _).mp h
  refine ⟨hn, ?_⟩
  clear h hn hne0 hj
  induction hv with
  | nil => simp
  | blank _ _ ih => exact ih (fun p hp => hc p (List.mem_cons_of_mem _ hp)) 
  | value hs hne ho _ ih =>
    intro v hv
    rcases List.mem_cons.mp hv with rfl | hv
    · obtain ⟨a, b, rfl, _⟩ := hs
      have hc' := hc _ (List.mem_cons_self ..)
      cases ho with
      | mk h1 h2 h3 =>
        refine ⟨h2, h3, h1, fun hm => hc' ?_, fun hm => hc' ?_⟩ <;> simp [hm]
    · exact ih (fun p hp => hc p (List.mem_cons_of_mem _ hp)) v hv

/-- Two values with blanks around them. -/
example : Reads "dsn.flash-override , wps.0,".toList [⟨"dsn".toList, "flash-override".toList⟩, ⟨"wps".toList, "0".toList⟩] :=
  (C141_resource _ _).mp (by decide +kernel)

/-- **C141** fails: a namespace with a comma is accepted, and one value is then written as two, of other priorities. -/
theorem C141_resource_injection : ∃ v, Value.new "dsn.flash-override,ets".toList "0".toList = some v ∧
    parseHeader (headerText [v]) = some [⟨"dsn".toList, "flash-override".toList⟩, ⟨"ets".toList, "0".toList⟩] :=
  ⟨⟨"dsn.flash-override,ets".toList, "0".toList⟩, by decide +kernel, by decide +kernel⟩

/-- **C141** fails: a namespace with a dot is accepted and is read back as another. -/
theorem C141_resource_dot : ∃ v, Value.new "a.b".toList "c".toList = some v ∧
    parseHeader (headerText [v]) = some [⟨"a".toList, "b.c".toList⟩] :=
  ⟨⟨"a.b".toList, "c".toList⟩, by decide +kernel, by decide +kernel⟩

/-- **C141** fails: values the API takes can be longer than what is read. -/
theorem C141_resource_long {vs : List Value} (h : 512 < utf8Len (headerText vs)) : parseHeader (headerText vs) = none := by
  unfold parseHeader MAX_PARSE_INPUT
  rw [if_pos h]

/-! ## Refer-Sub -/

/-- **C141**: a text is read as a Refer-Sub exactly if it is `true` or `false`, in any case and with blanks around, in at most 16 bytes;
what is written is read back. -/
theorem C141_refer_sub (t : Str) (b : Bool) :
    (referSub t = some b ↔ utf8Len t ≤ 16 ∧ ∃ w, Strips isWs t w ∧ SameName w (if b then "true" else "false").toList) ∧
    referSub (referSubText b) = some b := by
  refine ⟨?_, by cases b <;> decide +kernel⟩
  have e : ∀ w, Strips isWs t w ↔ w = trim t := strips_trim t
  simp only [e, exists_eq_left]
  unfold referSub MAX_REFER_SUB
  split
  · rename_i h
    constructor
    · intro h; cases h
    · rintro ⟨h', _⟩; omega
  · rename_i h
    rw [show (utf8Len t ≤ 16) = True from eq_true (by omega), true_and]
    cases b with
    | true =>
      simp only [if_true]
      rw [same_lower _ _ (by decide)]
      split
      · rename_i ht; exact ⟨fun _ => ht, fun _ => rfl⟩
      · rename_i ht
        split
        · exact ⟨fun h => (by cases h), fun h => absurd h ht⟩
        · exact ⟨fun h => (by cases h), fun h => absurd h ht⟩
    | false =>
      simp only [Bool.false_eq_true, if_false]
      rw [same_lower _ _ (by decide)]
      split
      · rename_i ht
        rw [ht]
        exact ⟨fun h => (by cases h), fun h => absurd h (by decide)⟩
      · split
        · rename_i hf; exact ⟨fun _ => hf, fun _ => rfl⟩
        · rename_i hf; exact ⟨fun h => (by cases h), fun h => absurd h hf⟩

example : referSub " FALSE ".toList = some false ∧ referSub "no".toList = none := by constructor <;> decide +kernel

/-! ## Entity tags -/

theorem etagChar_iff (c : Char) : etagChar c = true ↔ TokenChar c ∧ c ≠ '^' ∧ c ≠ '|' := by
  rw [← isHeaderNameChar_iff]
  unfold etagChar isHeaderNameChar
  simp [isAlnum_iff, char_eq_iff]
  omega

theorem tokenChar_not_ws {c : Char} (h : TokenChar c) : isWs c = false := by
  rw [← isHeaderNameChar_iff] at h
  simp [isHeaderNameChar, isAlnum_iff, char_eq_iff] at h
  have : ¬ isWs c = true := by
    simp [isWs]
    omega
  simpa using this

/-- **C141**: an entity tag is accepted exactly if it is a token of RFC 3261 of at most 128 bytes, and is kept as it is; a condition holds
exactly for the tag it names. -/
theorem C141_etag (s t u : Str) : (etag s = some t ↔ StrictToken s ∧ utf8Len s ≤ 128 ∧ t = s) ∧ (matchesEtag s u = true ↔ s = u) := by
  refine ⟨?_, by simp [matchesEtag]⟩
  have hv : validEtag s = true ↔ StrictToken s ∧ utf8Len s ≤ 128 := by
    unfold validEtag StrictToken Token MAX_ENTITY_TAG_LENGTH
    simp only [Bool.and_eq_true, Bool.not_eq_true', List.isEmpty_eq_false_iff, List.any_eq_false, List.all_eq_true, Bool.or_eq_true,
      decide_eq_false_iff_not, Nat.not_lt, etagChar_iff]
    constructor
    · rintro ⟨⟨⟨h1, h2⟩, _⟩, h4⟩
      exact ⟨⟨⟨h1, fun c hc => (h4 c hc).1⟩, fun hm => (h4 _ hm).2.1 rfl, fun hm => (h4 _ hm).2.2 rfl⟩, h2⟩
    · rintro ⟨⟨⟨h1, h4⟩, h5, h6⟩, h2⟩
      refine ⟨⟨⟨h1, h2⟩, fun c hc => ?_⟩, fun c hc => ⟨h4 c hc, fun e => h5 (e ▸ hc), fun e => h6 (e ▸ hc)⟩⟩
      rintro (h | h)
      · rw [tokenChar_not_control c (h4 c hc)] at h; cases h
      · rw [tokenChar_not_ws (h4 c hc)] at h; cases h
  unfold etag
  rw [← and_assoc, ← hv]
  cases validEtag s <;> simp [eq_comm]

example : etag "dx200xyz".toList = some "dx200xyz".toList ∧ etag "a|b".toList = none ∧ matchesEtag "dx2".toList "dx20".toList = false := by
  refine ⟨?_, ?_, ?_⟩ <;> decide +kernel

end Siphon.Prio
