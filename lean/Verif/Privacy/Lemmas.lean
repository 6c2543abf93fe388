import Verif.Privacy.Spec
import Verif.Core.HeadersGet
import Verif.Base.Strip
import Verif.Base.Utf8
import Verif.Auth.LemmasText
/-! Lemmas for C111 and C112. -/
namespace Siphon.Priv
open Spec HdrSpec TextSpec

/-! ## The scan for parameters -/

/-- One step that keeps the character. -/
def keepC (c : Char) (p : Str × Str) : Str × Str := (c :: p.1, p.2)

theorem sp_nil (q a e : Bool) : splitParams [] q a e = ([], []) := by rw [splitParams]

theorem sp_esc (c : Char) (t : Str) (q a : Bool) : splitParams (c :: t) q a true = keepC c (splitParams t q a false) := by
  rw [splitParams]; rfl

theorem sp_back (t : Str) (a : Bool) : splitParams ('\\' :: t) true a false = keepC '\\' (splitParams t true a true) := by
  rw [splitParams]; rfl

theorem sp_quote (t : Str) (q a : Bool) : splitParams ('"' :: t) q a false = keepC '"' (splitParams t (!q) a false) := by
  rw [splitParams]; rfl

theorem sp_lt (t : Str) (a : Bool) : splitParams ('<' :: t) false a false = keepC '<' (splitParams t false true false) := by
  rw [splitParams]; rfl

theorem sp_gt (t : Str) (a : Bool) : splitParams ('>' :: t) false a false = keepC '>' (splitParams t false false false) := by
  rw [splitParams]; rfl

theorem sp_semi (t : Str) : splitParams (';' :: t) false false false = ([], ';' :: t) := by
  rw [splitParams]; rfl

theorem sp_inQuote {c : Char} (h1 : c ≠ '"') (h2 : c ≠ '\\') (t : Str) (a : Bool) :
    splitParams (c :: t) true a false = keepC c (splitParams t true a false) := by
  rw [splitParams]
  simp only
  rw [if_neg (by simp), if_neg (fun h => h2 h.1), if_neg h1, if_neg (by simp), if_neg (by simp), if_neg (by simp)]
  rfl

theorem sp_inAngle {c : Char} (h1 : c ≠ '"') (h2 : c ≠ '>') (t : Str) :
    splitParams (c :: t) false true false = keepC c (splitParams t false true false) := by
  by_cases h3 : c = '<'
  · subst h3; exact sp_lt t true
  · rw [splitParams]
    simp only
    rw [if_neg (by simp), if_neg (by simp), if_neg h1, if_neg (fun h => h3 h.1), if_neg (fun h => h2 h.1), if_neg (by simp)]
    rfl

theorem sp_top {c : Char} (h1 : c ≠ '"') (h2 : c ≠ '<') (h3 : c ≠ ';') (t : Str) :
    splitParams (c :: t) false false false = keepC c (splitParams t false false false) := by
  by_cases h4 : c = '>'
  · subst h4; exact sp_gt t false
  · rw [splitParams]
    simp only
    rw [if_neg (by simp), if_neg (by simp), if_neg h1, if_neg (fun h => h2 h.1), if_neg (fun h => h4 h.1), if_neg (fun h => h3 h.1)]
    rfl

theorem quoted_run {q : Str} (h : Quoted q) (t : Str) (a : Bool) :
    splitParams (q ++ '"' :: t) true a false =
      (q ++ '"' :: (splitParams t false a false).1, (splitParams t false a false).2) := by
  induction h with
  | nil => exact sp_quote t true a
  | char h1 h2 _ ih => rw [List.cons_append, sp_inQuote h1 h2, ih]; rfl
  | escape _ ih =>
    rw [List.cons_append, List.cons_append, sp_back, sp_esc, ih]; rfl

theorem angled_run {b : Str} (h : Angled b) (t : Str) :
    splitParams (b ++ '>' :: t) false true false =
      (b ++ '>' :: (splitParams t false false false).1, (splitParams t false false false).2) := by
  induction h with
  | nil => exact sp_gt t true
  | char h1 h2 _ ih => rw [List.cons_append, sp_inAngle h1 h2, ih]; rfl
  | @quoted q u hq _ ih =>
    have e : ('"' :: q ++ '"' :: u) ++ '>' :: t = '"' :: (q ++ '"' :: (u ++ '>' :: t)) := by simp
    rw [e, sp_quote]
    show keepC '"' (splitParams (q ++ '"' :: (u ++ '>' :: t)) true true false) = _
    rw [quoted_run hq, ih]
    simp [keepC]

theorem address_run {a : Str} (h : Address a) (t : Str) : splitParams (a ++ ';' :: t) false false false = (a, ';' :: t) := by
  induction h with
  | nil => exact sp_semi t
  | char h1 h2 h3 _ ih => rw [List.cons_append, sp_top h1 h2 h3, ih]; rfl
  | @quoted q u hq _ ih =>
    have e : ('"' :: q ++ '"' :: u) ++ ';' :: t = '"' :: (q ++ '"' :: (u ++ ';' :: t)) := by simp
    rw [e, sp_quote]
    show keepC '"' (splitParams (q ++ '"' :: (u ++ ';' :: t)) true false false) = _
    rw [quoted_run hq, ih]
    simp [keepC]
  | @angled b u hb _ ih =>
    have e : ('<' :: b ++ '>' :: u) ++ ';' :: t = '<' :: (b ++ '>' :: (u ++ ';' :: t)) := by simp
    rw [e, sp_lt, angled_run hb, ih]
    simp [keepC]

/-- What the scan has passed, for every state it can be in, if it finds a semicolon. -/
theorem scan_sound : ∀ t : Str,
    ((splitParams t false false false).2 ≠ [] → ∃ r, t = (splitParams t false false false).1 ++ ';' :: r ∧
        (splitParams t false false false).2 = ';' :: r ∧ Address (splitParams t false false false).1) ∧
    ((splitParams t true false false).2 ≠ [] → ∃ q a r, t = q ++ '"' :: a ++ ';' :: r ∧
        splitParams t true false false = (q ++ '"' :: a, ';' :: r) ∧ Quoted q ∧ Address a) ∧
    ((splitParams t true false true).2 ≠ [] → ∃ c q a r, t = c :: q ++ '"' :: a ++ ';' :: r ∧
        splitParams t true false true = (c :: q ++ '"' :: a, ';' :: r) ∧ Quoted q ∧ Address a) ∧
    ((splitParams t false true false).2 ≠ [] → ∃ b a r, t = b ++ '>' :: a ++ ';' :: r ∧
        splitParams t false true false = (b ++ '>' :: a, ';' :: r) ∧ Angled b ∧ Address a) ∧
    ((splitParams t true true false).2 ≠ [] → ∃ q b a r, t = q ++ '"' :: b ++ '>' :: a ++ ';' :: r ∧
        splitParams t true true false = (q ++ '"' :: b ++ '>' :: a, ';' :: r) ∧ Quoted q ∧ Angled b ∧ Address a) ∧
    ((splitParams t true true true).2 ≠ [] → ∃ c q b a r, t = c :: q ++ '"' :: b ++ '>' :: a ++ ';' :: r ∧
        splitParams t true true true = (c :: q ++ '"' :: b ++ '>' :: a, ';' :: r) ∧ Quoted q ∧ Angled b ∧ Address a)
  | [] => by simp [sp_nil]
  | c :: t => by
    obtain ⟨i1, i2, i3, i4, i5, i6⟩ := scan_sound t
    refine ⟨?_, ?_, ?_, ?_, ?_, ?_⟩
    · by_cases h1 : c = '"'
      · subst h1
        rw [sp_quote]
        intro h
        obtain ⟨q, a, r, e, e', hq, ha⟩ := i2 h
        refine ⟨r, ?_, ?_, ?_⟩
        · show '"' :: t = (keepC '"' (splitParams t true false false)).1 ++ _
          rw [e']; simp [keepC, e]
        · show (keepC '"' (splitParams t true false false)).2 = _
          rw [e']; rfl
        · show Address (keepC '"' (splitParams t true false false)).1
          rw [e']; exact .quoted hq ha
      · by_cases h2 : c = '<'
        · subst h2
          rw [sp_lt]
          intro h
          obtain ⟨b, a, r, e, e', hb, ha⟩ := i4 h
          refine ⟨r, ?_, ?_, ?_⟩
          · rw [e']; simp [keepC, e]
          · rw [e']; rfl
          · rw [e']; exact .angled hb ha
        · by_cases h3 : c = ';'
          · subst h3
            rw [sp_semi]
            intro _
            exact ⟨t, rfl, rfl, .nil⟩
          · rw [sp_top h1 h2 h3]
            intro h
            obtain ⟨r, e, e', ha⟩ := i1 h
            exact ⟨r, congrArg (c :: ·) e, e', .char h1 h2 h3 ha⟩
    · by_cases h1 : c = '"'
      · subst h1
        rw [sp_quote]
        intro h
        obtain ⟨r, e, e', ha⟩ := i1 h
        refine ⟨[], (splitParams t false false false).1, r, congrArg ('"' :: ·) e, ?_, .nil, ha⟩
        show ('"' :: (splitParams t false false false).1, (splitParams t false false false).2) = _
        rw [e']; rfl
      · by_cases h2 : c = '\\'
        · subst h2
          rw [sp_back]
          intro h
          obtain ⟨d, q, a, r, e, e', hq, ha⟩ := i3 h
          refine ⟨'\\' :: d :: q, a, r, congrArg ('\\' :: ·) e, ?_, .escape hq, ha⟩
          rw [e']; rfl
        · rw [sp_inQuote h1 h2]
          intro h
          obtain ⟨q, a, r, e, e', hq, ha⟩ := i2 h
          exact ⟨c :: q, a, r, congrArg (c :: ·) e, by rw [e']; rfl, .char h1 h2 hq, ha⟩
    · rw [sp_esc]
      intro h
      obtain ⟨q, a, r, e, e', hq, ha⟩ := i2 h
      exact ⟨c, q, a, r, congrArg (c :: ·) e, by rw [e']; rfl, hq, ha⟩
    · by_cases h1 : c = '"'
      · subst h1
        rw [sp_quote]
        intro h
        obtain ⟨q, b, a, r, e, e', hq, hb, ha⟩ := i5 h
        refine ⟨'"' :: q ++ '"' :: b, a, r, ?_, ?_, .quoted hq hb, ha⟩
        · rw [e]; simp
        · show keepC '"' (splitParams t true true false) = _
          rw [e']; simp [keepC]
      · by_cases h2 : c = '>'
        · subst h2
          rw [sp_gt]
          intro h
          obtain ⟨r, e, e', ha⟩ := i1 h
          refine ⟨[], (splitParams t false false false).1, r, congrArg ('>' :: ·) e, ?_, .nil, ha⟩
          show ('>' :: (splitParams t false false false).1, (splitParams t false false false).2) = _
          rw [e']; rfl
        · rw [sp_inAngle h1 h2]
          intro h
          obtain ⟨b, a, r, e, e', hb, ha⟩ := i4 h
          exact ⟨c :: b, a, r, congrArg (c :: ·) e, by rw [e']; rfl, .char h1 h2 hb, ha⟩
    · by_cases h1 : c = '"'
      · subst h1
        rw [sp_quote]
        intro h
        obtain ⟨b, a, r, e, e', hb, ha⟩ := i4 h
        refine ⟨[], b, a, r, congrArg ('"' :: ·) e, ?_, .nil, hb, ha⟩
        show keepC '"' (splitParams t false true false) = _
        rw [e']; rfl
      · by_cases h2 : c = '\\'
        · subst h2
          rw [sp_back]
          intro h
          obtain ⟨d, q, b, a, r, e, e', hq, hb, ha⟩ := i6 h
          refine ⟨'\\' :: d :: q, b, a, r, congrArg ('\\' :: ·) e, ?_, .escape hq, hb, ha⟩
          rw [e']; rfl
        · rw [sp_inQuote h1 h2]
          intro h
          obtain ⟨q, b, a, r, e, e', hq, hb, ha⟩ := i5 h
          exact ⟨c :: q, b, a, r, congrArg (c :: ·) e, by rw [e']; rfl, .char h1 h2 hq, hb, ha⟩
    · rw [sp_esc]
      intro h
      obtain ⟨q, b, a, r, e, e', hq, hb, ha⟩ := i5 h
      exact ⟨c, q, b, a, r, congrArg (c :: ·) e, by rw [e']; rfl, hq, hb, ha⟩

theorem params_iff (v p : Str) : Params v p ↔ (splitParams v false false false).2 = p := by
  constructor
  · rintro (⟨a, t, ha, rfl, rfl⟩ | ⟨rfl, h⟩)
    · rw [address_run ha]
    · by_cases hp : (splitParams v false false false).2 = []
      · exact hp
      · obtain ⟨r, e, _, ha⟩ := (scan_sound v).1 hp
        exact absurd e (h _ r ha)
  · rintro rfl
    by_cases hp : (splitParams v false false false).2 = []
    · refine Or.inr ⟨hp, ?_⟩
      rintro a t ha rfl
      rw [address_run ha] at hp
      cases hp
    · obtain ⟨r, e, e', ha⟩ := (scan_sound v).1 hp
      exact Or.inl ⟨_, r, ha, e, e'⟩

theorem params_suffix {v p : Str} (h : Params v p) : ∃ a, v = a ++ p := by
  rcases h with ⟨a, t, _, rfl, rfl⟩ | ⟨rfl, _⟩
  · exact ⟨a, rfl⟩
  · exact ⟨v, by simp⟩

/-! ## The Privacy header -/

theorem value_iff (s : Str) (v : PValue) : PValue.parse s = some v ↔ ∃ w, SameName s w ∧ Word w v := by
  have same : ∀ w : Str, SameName s w ↔ lower s = lower w := by
    intro w
    rw [sameName_iff]
    simp [eqIgnoreCase]
  constructor
  · intro h
    unfold PValue.parse at h
    simp only at h
    repeat' split at h
    all_goals cases h
    · exact ⟨_, (same _).2 (by rename_i h; rw [h]; decide), .none⟩
    · exact ⟨_, (same _).2 (by rename_i h; rw [h]; decide), .header⟩
    · exact ⟨_, (same _).2 (by rename_i h; rw [h]; decide), .session⟩
    · exact ⟨_, (same _).2 (by rename_i h; rw [h]; decide), .user⟩
    · exact ⟨_, (same _).2 (by rename_i h; rw [h]; decide), .id⟩
    · exact ⟨_, (same _).2 (by rename_i h; rw [h]; decide), .critical⟩
  · rintro ⟨w, h1, h2⟩
    rw [same] at h1
    unfold PValue.parse
    rw [h1]
    cases h2 <;> decide

theorem blank_iff (s : Str) : (trim s).isEmpty = true ↔ Blank s := by
  obtain ⟨a, b, e, h1, h2, h3, h4⟩ := (strips_trim s (trim s)).2 rfl
  constructor
  · intro h
    rw [List.isEmpty_iff.1 h] at e
    intro c hc
    rw [e] at hc
    simp only [List.append_nil, List.mem_append] at hc
    rcases hc with hc | hc
    · exact h1 c hc
    · exact h2 c hc
  · intro h
    cases ht : trim s with
    | nil => rfl
    | cons c r =>
      exfalso
      have hf : isWs c = false := h3 c (by rw [ht]; rfl)
      have := h c (by rw [e, ht]; simp)
      rw [this] at hf; cases hf

theorem says_iff (p : Str) (v : PValue) : Says p v ↔ PValue.parse (trim p) = some v := by
  rw [value_iff]
  constructor
  · rintro ⟨w, w', h1, h2, h3⟩
    rw [strips_trim] at h1
    exact ⟨w', h1 ▸ h2, h3⟩
  · rintro ⟨w', h2, h3⟩
    exact ⟨_, w', (strips_trim _ _).2 rfl, h2, h3⟩

theorem says_not_blank {p : Str} {v : PValue} (h : Says p v) : (trim p).isEmpty = false := by
  rw [says_iff] at h
  cases ht : trim p with
  | nil => rw [ht] at h; exact absurd h (by cases v <;> decide)
  | cons => rfl

theorem allSay_iff : ∀ (ps : List Str) (vs : List PValue), AllSay ps vs ↔ readValues ps = some vs
  | [], vs => by
    constructor
    · intro h; cases h; rfl
    · intro h; cases h; exact .nil
  | p :: ps, vs => by
    rw [readValues]
    by_cases hb : (trim p).isEmpty = true
    · rw [if_pos hb]
      constructor
      · intro h
        cases h with
        | blank _ h => exact (allSay_iff ps vs).1 h
        | say h _ => rw [says_not_blank h] at hb; cases hb
      · intro h
        exact .blank ((blank_iff p).1 hb) ((allSay_iff ps vs).2 h)
    · rw [if_neg hb]
      constructor
      · intro h
        cases h with
        | blank h' _ => exact absurd ((blank_iff p).2 h') hb
        | say h h' =>
          rw [says_iff] at h
          rw [h]
          simp only
          rw [(allSay_iff ps _).1 h']
          rfl
      · intro h
        cases hp : PValue.parse (trim p) with
        | none => rw [hp] at h; cases h
        | some v =>
          rw [hp] at h
          simp only [Option.map_eq_some_iff] at h
          obtain ⟨vs', h1, rfl⟩ := h
          exact .say ((says_iff _ _).2 hp) ((allSay_iff ps vs').2 h1)

theorem new_iff (vs r : List PValue) : new vs = .ok r ↔ r = vs ∧ Proper vs := by
  unfold new Proper
  constructor
  · intro h
    split at h
    · cases h
    rename_i h1
    split at h
    · cases h
    rename_i h2
    split at h
    · cases h
    rename_i h3
    cases h
    refine ⟨rfl, by simpa [List.isEmpty_iff] using h1, by have : MAX_PRIVACY_VALUES = 10 := rfl; omega, ?_⟩
    intro hm
    match vs, h1, h2, hm with
    | [v], _, _, hm => simp only [List.mem_singleton] at hm; rw [hm]
    | a :: b :: t, _, h2, hm =>
      exfalso
      apply h2
      exact ⟨by simp, List.contains_iff_mem.2 hm⟩
  · rintro ⟨rfl, h1, h2, h3⟩
    rw [if_neg (by simpa [List.isEmpty_iff] using h1), if_neg, if_neg (by have : MAX_PRIVACY_VALUES = 10 := rfl; omega)]
    rintro ⟨h4, h5⟩
    rw [h3 (List.contains_iff_mem.1 h5)] at h4
    simp at h4

/-! ## The headers -/

/-- The headers whose name is none of the given ones. -/
def without (names : List String) (l : List Header) : List Header :=
  l.filter (fun h => !names.any (fun n => h.nameEq n.toList))

theorem foldl_remove : ∀ (names : List String) (hs : Headers),
    (names.foldl (fun hs n => (hs.remove n.toList).1) hs).inner = without names hs.inner
  | [], hs => by
    unfold without
    exact (List.filter_eq_self.2 (fun _ _ => rfl)).symm
  | n :: t, hs => by
    rw [List.foldl_cons, foldl_remove t]
    unfold without Headers.remove
    simp only [List.filter_filter, List.any_cons, Bool.not_or]
    apply List.filter_congr
    intro h _
    exact Bool.and_comm _ _

theorem nameEq_other {h : Header} {n m : Str} (hn : h.nameEq n = true) (hd : lower n ≠ lower m) : h.nameEq m = false := by
  unfold Header.nameEq eqIgnoreCase at *
  rw [beq_iff_eq] at hn
  rw [hn]
  simpa using hd

theorem find_without (names : List String) (n : Str) (l : List Header) (hd : ∀ m ∈ names, lower n ≠ lower m.toList) :
    (without names l).find? (·.nameEq n) = l.find? (·.nameEq n) := by
  unfold without
  rw [List.find?_filter]
  induction l with
  | nil => rfl
  | cons h t ih =>
    rw [List.find?_cons, List.find?_cons]
    have e : (decide (((!names.any fun n => h.nameEq n.toList) = true) ∧ h.nameEq n = true)) = h.nameEq n := by
      cases hn : h.nameEq n with
      | false => simp
      | true =>
        have : names.any (fun n => h.nameEq n.toList) = false := by
          rw [List.any_eq_false]
          intro m hm
          rw [nameEq_other hn (hd m hm)]
          simp
        simp [this]
    rw [e, ih]

/-- The names that are hidden. -/
def hiddenNames (vs : List PValue) : List String :=
  (if hidesHeaders vs then removable else []) ++
  (if hidesIdentity vs then ["From", "Contact", "P-Asserted-Identity", "P-Preferred-Identity"] else [])

theorem hidesHeaders_iff (vs : List PValue) : hidesHeaders vs = true ↔ .header ∈ vs ∨ .user ∈ vs := by
  unfold hidesHeaders
  rw [List.any_eq_true]
  constructor
  · rintro ⟨v, hv, h⟩
    simp only [Bool.or_eq_true, beq_iff_eq] at h
    rcases h with rfl | rfl
    · exact Or.inl hv
    · exact Or.inr hv
  · rintro (h | h)
    · exact ⟨_, h, by decide⟩
    · exact ⟨_, h, by decide⟩

theorem hidesIdentity_iff (vs : List PValue) : hidesIdentity vs = true ↔ .id ∈ vs ∨ .user ∈ vs := by
  unfold hidesIdentity
  rw [List.any_eq_true]
  constructor
  · rintro ⟨v, hv, h⟩
    simp only [Bool.or_eq_true, beq_iff_eq] at h
    rcases h with rfl | rfl
    · exact Or.inl hv
    · exact Or.inr hv
  · rintro (h | h)
    · exact ⟨_, h, by decide⟩
    · exact ⟨_, h, by decide⟩

theorem hidden_iff (vs : List PValue) (h : Header) : Hidden vs h.name ↔ (hiddenNames vs).any (fun n => h.nameEq n.toList) = true := by
  unfold hiddenNames
  rw [List.any_append, Bool.or_eq_true]
  constructor
  · intro hh
    cases hh with
    | header h1 h2 h3 =>
      left
      rw [if_pos ((hidesHeaders_iff vs).2 h1), List.any_eq_true]
      exact ⟨_, h2, (nameEq_iff _ _).2 h3⟩
    | identity h1 h2 h3 =>
      right
      rw [if_pos ((hidesIdentity_iff vs).2 h1), List.any_eq_true]
      exact ⟨_, h2, (nameEq_iff _ _).2 h3⟩
  · rintro (hh | hh)
    · split at hh
      · rename_i h1
        rw [List.any_eq_true] at hh
        obtain ⟨m, h2, h3⟩ := hh
        exact .header ((hidesHeaders_iff vs).1 h1) h2 ((nameEq_iff _ _).1 h3)
      · cases hh
    · split at hh
      · rename_i h1
        rw [List.any_eq_true] at hh
        obtain ⟨m, h2, h3⟩ := hh
        exact .identity ((hidesIdentity_iff vs).1 h1) h2 ((nameEq_iff _ _).1 h3)
      · cases hh

theorem kept_iff (vs : List PValue) : ∀ (l k : List Header), Kept vs l k ↔ k = without (hiddenNames vs) l
  | [], k => by
    constructor
    · intro h; cases h; rfl
    · rintro rfl; exact .nil
  | h :: t, k => by
    unfold without
    rw [List.filter_cons]
    by_cases hh : Hidden vs h.name
    · rw [if_neg (by rw [(hidden_iff vs h).1 hh]; simp)]
      constructor
      · intro hk
        cases hk with
        | keep h1 _ => exact absurd hh h1
        | drop _ h2 => exact (kept_iff vs t _).1 h2
      · intro hk
        exact .drop hh ((kept_iff vs t k).2 hk)
    · rw [if_pos (by
        have : (hiddenNames vs).any (fun n => h.nameEq n.toList) = false := by
          rw [Bool.eq_false_iff]
          exact fun hx => hh ((hidden_iff vs h).2 hx)
        rw [this]; rfl)]
      constructor
      · intro hk
        cases hk with
        | keep _ h2 => rw [(kept_iff vs t _).1 h2]; rfl
        | drop h1 _ => exact absurd h1 hh
      · rintro rfl
        exact .keep hh ((kept_iff vs t _).2 rfl)

/-! ## One header replaced -/

theorem hinv_without {hs : Headers} (h : HInv hs) (names : List String) : HInv ⟨without names hs.inner⟩ := by
  refine ⟨?_, fun x hx => h.2 x (List.mem_filter.1 hx).1⟩
  have := List.length_filter_le (fun h : Header => !names.any (fun n => h.nameEq n.toList)) hs.inner
  exact Nat.le_trans this h.1

theorem remove_eq (hs : Headers) (n : String) : (hs.remove n.toList).1 = ⟨without [n] hs.inner⟩ := by
  unfold Headers.remove without
  simp only [List.any_cons, List.any_nil, Bool.or_false]

/-- The header that replaces. -/
def mask (name : String) (v : Str) : Header :=
  ⟨name.toList, "\"Anonymous\" <sip:anonymous@anonymous.invalid>".toList ++ (splitParams v false false false).2⟩

/-- The replacement of a header for one that may be absent. -/
def masks (name : String) : Option Str → List Header
  | Option.none => []
  | some v => [mask name v]

theorem get_mem {hs : Headers} {n v : Str} (h : hs.get n = some v) : ∃ x ∈ hs.inner, x.value = v ∧ x.nameEq n = true := by
  unfold Headers.get Headers.getHeader at h
  rw [Option.map_eq_some_iff] at h
  obtain ⟨x, h1, rfl⟩ := h
  have h2 : (fun y : Header => y.nameEq n) x = true := List.find?_some (p := fun y : Header => y.nameEq n) h1
  exact ⟨x, List.mem_of_find?_eq_some h1, rfl, h2⟩

theorem mask_ok {v : Str} (hv : OneLine v) (hl : utf8Len v ≤ 1024) (name : String) :
    OneLine (mask name v).value ∧ utf8Len (mask name v).value ≤ 8192 := by
  obtain ⟨a, e⟩ := params_suffix ((params_iff v _).2 rfl)
  unfold mask
  simp only
  generalize (splitParams v false false false).2 = p at e
  subst e
  constructor
  · obtain ⟨h1, h2, h3⟩ := hv
    refine ⟨?_, ?_, ?_⟩
    · intro h; rcases List.mem_append.1 h with h | h
      · revert h; decide
      · exact h1 (List.mem_append_right _ h)
    · intro h; rcases List.mem_append.1 h with h | h
      · revert h; decide
      · exact h2 (List.mem_append_right _ h)
    · intro h; rcases List.mem_append.1 h with h | h
      · revert h; decide
      · exact h3 (List.mem_append_right _ h)
  · have e1 : ∀ x y : Str, utf8Len (x ++ y) = utf8Len x + utf8Len y := by
      intro x y; simp [utf8Len]
    have e2 : utf8Len "\"Anonymous\" <sip:anonymous@anonymous.invalid>".toList = 45 := by decide
    rw [e1] at hl ⊢
    rw [e2]
    omega

theorem without_self (n : String) (l : List Header) (h : l.find? (·.nameEq n.toList) = Option.none) : without [n] l = l := by
  unfold without
  rw [List.filter_eq_self]
  intro x hx
  rw [List.find?_eq_none] at h
  have := h x hx
  simp only [List.any_cons, List.any_nil, Bool.or_false]
  simpa using this

theorem length_without_lt {n : String} {l : List Header} {x : Header} (hx : x ∈ l) (hn : x.nameEq n.toList = true) :
    (without [n] l).length < l.length := by
  unfold without
  rw [List.length_filter_lt_length_iff_exists]
  exact ⟨x, hx, by simp [hn]⟩

/-- What replacing does: an error exactly for an overlong value, and then nothing is changed. -/
theorem replace_spec (hs : Headers) (hi : HInv hs) (name : String) (hn : Token name.toList) (hl : utf8Len name.toList ≤ 128) :
    replaceHeader hs name =
      if (match hs.get name.toList with | some v => decide (1024 < utf8Len v) | Option.none => false) then (hs, some .inputTooLarge)
      else (⟨without [name] hs.inner ++ masks name (hs.get name.toList)⟩, Option.none) := by
  unfold replaceHeader
  cases hg : hs.get name.toList with
  | none =>
    simp only [masks, List.append_nil]
    have : hs.inner.find? (·.nameEq name.toList) = Option.none := by
      unfold Headers.get Headers.getHeader at hg
      rw [Option.map_eq_none_iff] at hg
      exact hg
    rw [without_self _ _ this]
    rfl
  | some v =>
    simp only
    unfold anonymous
    by_cases hlv : 1024 < utf8Len v
    · rw [if_pos hlv, if_pos (by simp [hlv])]
    · rw [if_neg hlv, if_neg (by simp [hlv])]
      simp only
      obtain ⟨x, hx, rfl, hxn⟩ := get_mem hg
      have hc := (hi.2 x hx).1.2
      obtain ⟨m1, m2⟩ := mask_ok hc (Nat.le_of_not_lt hlv) name
      rw [remove_eq]
      have hlen := length_without_lt hx hxn
      have hroom : (Headers.mk (without [name] hs.inner)).len < 200 := by
        show (without [name] hs.inner).length < 200
        have := hi.1
        omega
      have hp := C24_push_ok ⟨without [name] hs.inner⟩ name.toList (mask name x.value).value hroom hn hl m1 m2
      unfold mask at hp
      simp only at hp
      rw [hp]
      rfl

end Siphon.Priv
