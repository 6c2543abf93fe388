import Verif.Core.ViaLemmas
/-!
# Via header values (C28)

A Via that was read can be written and read again without change.  One built through the API can too,
when the values put into it contain no semicolon and no white space at their ends.  The API does not check
that, and `C28_injection` shows what follows.
-/
namespace Siphon.Via
open TextSpec HdrSpec ViaSpec UriP

/-! ## What is read -/

/-- C28: what is read is what the text says. -/
theorem C28_read (s : Str) (v : Via) (h : Via.parse s = some v) :
    ∃ es, ViaText s v.transport v.sentBy es ∧ ∀ n x, v.param n = some x ↔ Says es n x := by
  obtain ⟨es, ht, hv⟩ := (parse_iff s v).mp h
  refine ⟨es, ht, fun n x => ?_⟩
  obtain ⟨_, _, _, parts, _, _, _, _, _, _, _, _, _, _, hp⟩ := ht
  rw [Via.param, hv]
  exact mapOf_get es (params_facts hp).1 n x

/-- C28: every well-formed text is read. -/
theorem C28_accepts (s tr sb : Str) (es : List (Str × Option Str)) (h : ViaText s tr sb es) :
    ∃ v, Via.parse s = some v ∧ v.transport = tr ∧ v.sentBy = sb ∧ ∀ n x, v.param n = some x ↔ Says es n x := by
  refine ⟨⟨tr, sb, mapOf es⟩, (parse_iff _ _).mpr ⟨es, h, rfl⟩, rfl, rfl, fun n x => ?_⟩
  obtain ⟨_, _, _, parts, _, _, _, _, _, _, _, _, _, _, hp⟩ := h
  exact mapOf_get es (params_facts hp).1 n x

example : Via.parse " SIP / 2.0/UDP a".toList = none := by decide +kernel
example : ∃ v, Via.parse "\tsip/2.0/UDP  [2001:db8::1]:5060 ; Branch = z9hG4bK1;; rport".toList = some v ∧
    v.param "BRANCH".toList = some (some "z9hG4bK1".toList) ∧ v.param "rport".toList = some none :=
  ⟨⟨"UDP".toList, "[2001:db8::1]:5060".toList, [("branch".toList, some "z9hG4bK1".toList), ("rport".toList, none)]⟩,
    by decide +kernel, by decide +kernel, by decide +kernel⟩

/-! ## Writing and reading again -/

/-- C28: a Via that was read is written as a text that reads back the same. -/
theorem C28_roundtrip (s : Str) (v : Via) (h : Via.parse s = some v) : Via.parse v.show = some v :=
  reparse (parse_good h)

example : (Via.parse "sip/2.0/UDP  a.b:5060 ; Branch = x;rport".toList).map Via.show
    = some "SIP/2.0/UDP a.b:5060;branch=x;rport".toList := by decide +kernel

/-- The value has no semicolon and neither starts nor ends with white space. -/
def Plain (x : Option Str) : Prop := ∀ v, x = some v → ';' ∉ v ∧ Trimmed v

/-- What an application can build: a new Via, then parameters added or replaced.  `Built P v` says that
every value was one of those in `P`. -/
inductive Built (P : Option Str → Prop) : Via → Prop
  | new {t s v} : Via.new t s = some v → Built P v
  | parsed {s v} : Via.parse s = some v → Built P v
  | withParam {v n x v'} : Built P v → P x → v.withParam n x = some v' → Built P v'
  | setParam {v n x v'} : Built P v → P x → v.setParam n x = some v' → Built P v'

theorem blength_insert_has {V : Type} (m : BMap V) (k : Str) (v : V) (hs : Sorted m) (h : m.has k = true) :
    (m.insert k v).length = m.length := by
  induction m with
  | nil => simp [BMap.has] at h
  | cons x t ih =>
    obtain ⟨a, b⟩ := x
    obtain ⟨h1, h2⟩ := List.pairwise_cons.mp hs
    simp only [BMap.insert]
    split
    · rfl
    · rename_i hka
      have ht : BMap.has t k = true := by
        simp only [BMap.has, List.any_cons, Bool.or_eq_true, beq_iff_eq] at h
        rcases h with h | h
        · exact absurd h.symm hka
        · exact h
      split
      · rename_i hlt
        obtain ⟨e, he, hk⟩ := List.any_eq_true.mp ht
        have hk' : e.1 = k := by simpa using hk
        have := strLt_trans _ _ _ hlt (h1 e he)
        rw [hk', strLt_irrefl] at this; cases this
      · simp [ih h2 ht]

theorem good_insert {v : Via} {n : Str} {x : Option Str} (hg : Good v) (hn : validParamName n = true)
    (hx : validValue x = true) (hp : Plain x) (hl : v.params.has (lower n) = true ∨ v.params.length < 20) :
    Good { v with params := v.params.insert (lower n) x } := by
  refine ⟨hg.tr, hg.sb, hg.sbLen, ?_, sorted_insert _ _ hg.sorted, ?_⟩
  · intro e he
    rcases mem_insert he with rfl | he
    · refine ⟨tok_lower ((validParamName_iff n).mp hn), lower_lower _, fun w hw => ?_⟩
      simp only at hw
      subst hw
      exact ⟨(validParamValue_iff _).mp hx, (hp w rfl).2, (hp w rfl).1⟩
    · exact hg.good e he
  · by_cases hh : v.params.has (lower n) = true
    · have := blength_insert_has v.params (lower n) x hg.sorted hh
      simp only [this]; exact hg.few
    · rcases hl with hl | hl
      · exact absurd hl hh
      · exact Nat.le_trans (length_insert _ _ _) hl

theorem withParam_some {v v' : Via} {n : Str} {x : Option Str} (h : v.withParam n x = some v') :
    validParamName n = true ∧ v.params.has (lower n) = false ∧ v.params.length < 20 ∧ validValue x = true ∧
    v' = { v with params := v.params.insert (lower n) x } := by
  simp only [Via.withParam] at h
  split at h
  · cases h
  · split at h
    · cases h
    · split at h
      · cases h
      · split at h
        · cases h
        · rename_i h1 h2 h3 h4
          simp only [Option.some.injEq] at h
          exact ⟨by simpa using h1, by simpa using h2, by simpa [MAX_PARAMS] using h3, by simpa using h4, h.symm⟩

theorem setParam_some {v v' : Via} {n : Str} {x : Option Str} (h : v.setParam n x = some v') :
    validParamName n = true ∧ (v.params.has (lower n) = true ∨ v.params.length < 20) ∧ validValue x = true ∧
    v' = { v with params := v.params.insert (lower n) x } := by
  simp only [Via.setParam] at h
  split at h
  · cases h
  · split at h
    · cases h
    · split at h
      · cases h
      · rename_i h1 h2 h4
        simp only [Option.some.injEq] at h
        refine ⟨by simpa using h1, ?_, by simpa using h4, h.symm⟩
        cases hh : v.params.has (lower n) with
        | true => exact Or.inl rfl
        | false =>
          rw [hh] at h2
          simp [MAX_PARAMS] at h2
          exact Or.inr h2

theorem built_good {v : Via} (h : Built Plain v) : Good v := by
  induction h with
  | @new t s v h =>
    simp only [Via.new] at h
    split at h
    · rename_i hv
      simp only [Bool.and_eq_true] at hv
      simp only [Option.some.injEq] at h
      subst h
      obtain ⟨h1, h2⟩ := (validSentBy_iff _).mp hv.2
      exact ⟨(validTransport_iff _).mp hv.1, h1, h2, by simp, List.Pairwise.nil, by simp⟩
    · cases h
  | parsed h => exact parse_good h
  | withParam _ hp h ih =>
    obtain ⟨h1, h2, h3, h4, rfl⟩ := withParam_some h
    exact good_insert ih h1 h4 hp (Or.inr h3)
  | setParam _ hp h ih =>
    obtain ⟨h1, h2, h4, rfl⟩ := setParam_some h
    exact good_insert ih h1 h4 hp h2

/-- C28, restricted to values without a semicolon and without white space at their ends: whatever an
application builds is written as a text that reads back the same. -/
theorem C28_built_partial (v : Via) (h : Built Plain v) : Via.parse v.show = some v := reparse (built_good h)

example : Built Plain ⟨"UDP".toList, "a:5060".toList, [("branch".toList, some "z9hG4bK1".toList), ("rport".toList, none)]⟩ := by
  have h0 : Via.new "UDP".toList "a:5060".toList = some ⟨"UDP".toList, "a:5060".toList, []⟩ := by decide +kernel
  have h1 : (⟨"UDP".toList, "a:5060".toList, []⟩ : Via).withParam "rport".toList none =
    some ⟨"UDP".toList, "a:5060".toList, [("rport".toList, none)]⟩ := by decide +kernel
  have h2 : (⟨"UDP".toList, "a:5060".toList, [("rport".toList, none)]⟩ : Via).withParam "Branch".toList (some "z9hG4bK1".toList) =
    some ⟨"UDP".toList, "a:5060".toList, [("branch".toList, some "z9hG4bK1".toList), ("rport".toList, none)]⟩ := by decide +kernel
  refine .withParam (.withParam (.new h0) ?_ h1) ?_ h2
  · intro v hv; cases hv
  · intro v hv
    simp only [Option.some.injEq] at hv
    subst hv
    refine ⟨by decide, ?_, ?_⟩
    · intro c hc; cases hc; decide
    · intro c hc; cases hc; decide

/-- C28 fails in full: a value with a semicolon becomes two parameters, so that whoever chooses a branch
value chooses the address the response is sent to. -/
theorem C28_injection : ∃ v v' w, Via.new "UDP".toList "a:5060".toList = some v ∧
    v.withParam "branch".toList (some "x;received=6.6.6.6".toList) = some v' ∧ v'.param "received".toList = none ∧
    Via.parse v'.show = some w ∧ w.param "received".toList = some (some "6.6.6.6".toList) :=
  ⟨⟨"UDP".toList, "a:5060".toList, []⟩,
   ⟨"UDP".toList, "a:5060".toList, [("branch".toList, some "x;received=6.6.6.6".toList)]⟩,
   ⟨"UDP".toList, "a:5060".toList, [("branch".toList, some "x".toList), ("received".toList, some "6.6.6.6".toList)]⟩,
   by decide +kernel, by decide +kernel, by decide +kernel, by decide +kernel, by decide +kernel⟩

/-- C28 fails in full: white space at the end of a value is lost. -/
theorem C28_space_lost : ∃ v v' w, Via.new "UDP".toList "a".toList = some v ∧
    v.withParam "branch".toList (some "x ".toList) = some v' ∧ Via.parse v'.show = some w ∧ w ≠ v' :=
  ⟨⟨"UDP".toList, "a".toList, []⟩, ⟨"UDP".toList, "a".toList, [("branch".toList, some "x ".toList)]⟩,
   ⟨"UDP".toList, "a".toList, [("branch".toList, some "x".toList)]⟩,
   by decide +kernel, by decide +kernel, by decide +kernel, by decide +kernel⟩

/-! ## Parameters -/

/-- C28: an added parameter is there, the others are as before, and it was not there before. -/
theorem C28_with (v v' : Via) (n : Str) (x : Option Str) (h : v.withParam n x = some v') :
    v'.transport = v.transport ∧ v'.sentBy = v.sentBy ∧ v.param n = none ∧ v'.param n = some x ∧
    ∀ m, ¬ SameName m n → v'.param m = v.param m := by
  obtain ⟨h1, h2, h3, h4, rfl⟩ := withParam_some h
  refine ⟨rfl, rfl, ?_, ?_, ?_⟩
  · cases hg : v.param n with
    | none => rfl
    | some y =>
      have := (bhas_iff _ _).mpr ⟨y, hg⟩
      rw [h2] at this; cases this
  · simp [Via.param, bget_insert]
  · intro m hm
    simp only [Via.param, bget_insert]
    rw [if_neg (fun he => hm ((sameName_lower _ _).mpr he))]

/-- C28: a parameter that was set has the new value, the others are as before. -/
theorem C28_set (v v' : Via) (n : Str) (x : Option Str) (h : v.setParam n x = some v') :
    v'.transport = v.transport ∧ v'.sentBy = v.sentBy ∧ v'.param n = some x ∧
    ∀ m, ¬ SameName m n → v'.param m = v.param m := by
  obtain ⟨h1, h2, h4, rfl⟩ := setParam_some h
  refine ⟨rfl, rfl, ?_, ?_⟩
  · simp [Via.param, bget_insert]
  · intro m hm
    simp only [Via.param, bget_insert]
    rw [if_neg (fun he => hm ((sameName_lower _ _).mpr he))]

/-- C28: setting a parameter is possible exactly for a token of at most 64 bytes and an admissible value, when
the parameter is present or there is room for one more. -/
theorem C28_set_iff (v : Via) (n : Str) (x : Option Str) :
    (∃ v', v.setParam n x = some v') ↔
      Tok 64 n ∧ (∀ w, x = some w → Value w) ∧ (v.param n ≠ none ∨ v.params.length < 20) := by
  have val : validValue x = true ↔ ∀ w, x = some w → Value w := by
    cases x with
    | none => simp [validValue]
    | some w => simp [validValue, validParamValue_iff]
  have has : v.params.has (lower n) = true ↔ v.param n ≠ none := by
    rw [bhas_iff, Via.param]
    cases v.params.get (lower n) <;> simp
  constructor
  · rintro ⟨v', h⟩
    obtain ⟨h1, h2, h4, _⟩ := setParam_some h
    exact ⟨(validParamName_iff n).mp h1, val.mp h4, h2.imp has.mp id⟩
  · rintro ⟨h1, h2, h3⟩
    refine ⟨{ v with params := v.params.insert (lower n) x }, ?_⟩
    rw [Via.setParam, if_neg (by rw [(validParamName_iff n).mpr h1]; simp), if_neg, if_neg (by rw [val.mpr h2]; simp)]
    rintro hh
    simp only [Bool.and_eq_true, Bool.not_eq_true', decide_eq_true_eq] at hh
    rcases h3 with h3 | h3
    · rw [has.mpr h3] at hh; cases hh.1
    · have := hh.2; simp only [MAX_PARAMS, ge_iff_le] at this; omega

example : (⟨"UDP".toList, "a".toList, [("rport".toList, none)]⟩ : Via).setParam "RPORT".toList (some "5060".toList)
    = some ⟨"UDP".toList, "a".toList, [("rport".toList, some "5060".toList)]⟩ := by decide +kernel

/-- C28: two Vias in one header value are not read as one: the comma stays in a parameter value, or, after a
parameter of the second Via that the first has too, nothing is read. -/
theorem C28_joined : Via.parse "SIP/2.0/UDP a;branch=x, SIP/2.0/UDP b;branch=y".toList = none ∧
    ∃ v, Via.parse "SIP/2.0/UDP a;branch=x, SIP/2.0/UDP b".toList = some v ∧
      v.param "branch".toList = some (some "x, SIP/2.0/UDP b".toList) :=
  ⟨by decide +kernel, ⟨"UDP".toList, "a".toList, [("branch".toList, some "x, SIP/2.0/UDP b".toList)]⟩,
   by decide +kernel, by decide +kernel⟩

end Siphon.Via
