import Verif.Event.Spec
import Verif.Prio.Props
import Verif.Reason.Props
import Verif.Auth.LemmasText
/-!
# C145: Event and Subscription-State
-/
namespace Siphon.EventHdr
open TextSpec HdrSpec Spec

theorem valid_iff (max : Nat) (s : Str) : valid max s = true ↔ Good max s := by
  unfold valid Good Token
  have hc : ∀ c, tokenChar c = true ↔ TokenChar c ∧ c ≠ '^' ∧ c ≠ '|' := Prio.etagChar_iff
  simp only [Bool.and_eq_true, Bool.not_eq_true', List.isEmpty_eq_false_iff, List.all_eq_true, decide_eq_false_iff_not, Nat.not_lt, hc]
  constructor
  · rintro ⟨⟨h1, h2⟩, h4⟩
    exact ⟨⟨⟨h1, fun c hc => (h4 c hc).1⟩, fun hm => (h4 _ hm).2.1 rfl, fun hm => (h4 _ hm).2.2 rfl⟩, h2⟩
  · rintro ⟨⟨⟨h1, h4⟩, h5, h6⟩, h2⟩
    exact ⟨⟨h1, h2⟩, fun c hc => ⟨h4 c hc, fun e => h5 (e ▸ hc), fun e => h6 (e ▸ hc)⟩⟩

theorem splitOnce_none (c : Char) (s : Str) : splitOnce c s = none ↔ c ∉ s := by
  constructor
  · intro h hm
    obtain ⟨a, b, he, ha⟩ := List.eq_append_cons_of_mem hm
    exact absurd ((Auth.splitOnce_some_iff c _ a b).mpr ⟨he, ha⟩) (by rw [h]; simp)
  · intro h
    cases hs : splitOnce c s with
    | none => rfl
    | some x => exact absurd ((Auth.splitOnce_some_iff c s x.1 x.2).mp hs).1 (fun e => h (by rw [e]; simp))

theorem says_iff (t : Str) (x : Str × Option Str) : Says t x ↔ x = item t := by
  unfold item
  constructor
  · intro h
    cases h with
    | flag h => rw [(splitOnce_none _ _).mpr h]
    | @value n v w u h h1 h2 =>
      rw [(Auth.splitOnce_some_iff '=' _ n v).mpr ⟨rfl, h⟩]
      simp only
      rw [← (strips_trim _ _).mp h1, Auth.trimMatches_eq_strip, ← (strips_iff _ _ _).mp h2]
  · rintro rfl
    cases hs : splitOnce '=' t with
    | none => exact .flag ((splitOnce_none _ _).mp hs)
    | some y =>
      obtain ⟨n, v⟩ := y
      obtain ⟨rfl, h⟩ := (Auth.splitOnce_some_iff '=' _ n v).mp hs
      exact .value h ((strips_trim _ _).mpr rfl) ((strips_iff _ _ _).mpr (Auth.trimMatches_eq_strip _ _))

theorem items_iff (ps : List Str) (xs : List (Str × Option Str)) : Items ps xs ↔ xs = items ps := by
  constructor
  · intro h
    induction h with
    | nil => rfl
    | blank h _ ih =>
      rw [ih]
      have := (strips_trim _ _).mp h
      simp [items, ← this]
    | @item p t x ps xs h hne hs _ ih =>
      rw [ih, (says_iff _ _).mp hs]
      have := (strips_trim _ _).mp h
      subst this
      simp [items, hne]
  · rintro rfl
    induction ps with
    | nil => exact .nil
    | cons p ps ih =>
      by_cases h : trim p = []
      · have e : items (p :: ps) = items ps := by simp [items, h]
        rw [e]
        exact .blank ((strips_trim _ _).mpr h.symm) ih
      · have e : items (p :: ps) = item (trim p) :: items ps := by simp [items, h]
        rw [e]
        exact .item ((strips_trim _ _).mpr rfl) h ((says_iff _ _).mpr rfl) ih

/-- **C145**: a parameter is taken exactly if its name and value are tokens that are not too long, there is room, and no parameter of that
name is there; then its value is found under its name, in any case, and the others are as before. -/
theorem C145_add (m : Params) (n : Str) (v : Option Str) :
    ((∃ m', addParam m n v = some m') ↔ Good 64 n ∧ (∀ w, v = some w → Good 256 w) ∧ m.length < 20 ∧ getParam m n = none) ∧
    ∀ m', addParam m n v = some m' → m'.length = m.length + 1 ∧
      ∀ k, (SameName k n → getParam m' k = some v) ∧ (¬ SameName k n → getParam m' k = getParam m k) := by
  have hv : v.all (valid MAX_PARAM_VALUE_LENGTH) = true ↔ ∀ w, v = some w → Good 256 w := by
    cases v with
    | none => simp
    | some w =>
      rw [Option.all_some, show valid MAX_PARAM_VALUE_LENGTH w = valid 256 w from rfl, valid_iff]
      simp
  have hM : MAX_PARAMS = 20 := rfl
  have hk : m.has (lower n) = false ↔ getParam m n = none := by
    unfold getParam
    rw [← Bool.not_eq_true, Via.bhas_iff]
    cases m.get (lower n) <;> simp
  have hn : valid MAX_PARAM_NAME_LENGTH n = true ↔ Good 64 n := valid_iff 64 n
  unfold addParam
  cases h1 : valid MAX_PARAM_NAME_LENGTH n with
  | false =>
    rw [h1] at hn
    refine ⟨⟨?_, ?_⟩, ?_⟩
    · rintro ⟨_, h⟩; simp at h
    · rintro ⟨h, _⟩; exact absurd (hn.mpr h) (by decide)
    · intro m' h; simp at h
  | true =>
    cases h2 : v.all (valid MAX_PARAM_VALUE_LENGTH) with
    | false =>
      rw [h2] at hv
      refine ⟨⟨?_, ?_⟩, ?_⟩
      · rintro ⟨_, h⟩; simp at h
      · rintro ⟨_, h, _⟩; exact absurd (hv.mpr h) (by decide)
      · intro m' h; simp at h
    | true =>
      simp only [Bool.not_true, Bool.false_eq_true, if_false]
      by_cases h3 : m.length ≥ MAX_PARAMS
      · rw [if_pos h3]
        refine ⟨⟨fun ⟨_, h⟩ => (by cases h), fun h => absurd h.2.2.1 (by omega)⟩, fun m' h => (by cases h)⟩
      · rw [if_neg h3]
        cases h4 : m.has (lower n) with
        | true =>
          rw [h4] at hk
          refine ⟨⟨fun ⟨_, h⟩ => (by simp at h), fun h => absurd (hk.mpr h.2.2.2) (by decide)⟩, fun m' h => (by simp at h)⟩
        | false =>
          simp only [Bool.false_eq_true, if_false, Option.some.injEq]
          refine ⟨⟨fun _ => ⟨hn.mp h1, hv.mp h2, by omega, hk.mp h4⟩, fun _ => ⟨_, rfl⟩⟩, ?_⟩
          rintro m' rfl
          refine ⟨Via.blength_insert m _ v h4, fun k => ?_⟩
          unfold getParam
          rw [Via.bget_insert]
          have e : SameName k n ↔ lower k = lower n := by
            rw [sameName_iff]; unfold eqIgnoreCase; rw [beq_iff_eq]
          rw [e]
          exact ⟨fun h => if_pos h, fun h => if_neg h⟩

example : ∃ m', addParam [("a".toList, none)] "B".toList (some "1".toList) = some m' := ⟨_, rfl⟩

/-- The names in small letters. -/
def keyed (xs : List (Str × Option Str)) : List (Str × Option Str) := xs.map (fun x => (lower x.1, x.2))

def GoodParam (x : Str × Option Str) : Prop := Good 64 x.1 ∧ ∀ v, x.2 = some v → Good 256 v

theorem addParam_iff (m m' : Params) (n : Str) (v : Option Str) :
    addParam m n v = some m' ↔ GoodParam (n, v) ∧ m.length < 20 ∧ m.has (lower n) = false ∧ m' = m.insert (lower n) v := by
  have hv : v.all (valid MAX_PARAM_VALUE_LENGTH) = true ↔ ∀ w, v = some w → Good 256 w := by
    cases v with
    | none => simp
    | some w =>
      rw [Option.all_some, show valid MAX_PARAM_VALUE_LENGTH w = valid 256 w from rfl, valid_iff]
      simp
  have hM : MAX_PARAMS = 20 := rfl
  unfold GoodParam
  rw [← hv, ← valid_iff, show (64 : Nat) = MAX_PARAM_NAME_LENGTH from rfl]
  unfold addParam
  by_cases h3 : m.length ≥ MAX_PARAMS
  · have : ¬ m.length < 20 := by omega
    cases valid MAX_PARAM_NAME_LENGTH n <;> cases v.all (valid MAX_PARAM_VALUE_LENGTH) <;> simp [h3, this]
  · have : m.length < 20 := by omega
    cases valid MAX_PARAM_NAME_LENGTH n <;> cases v.all (valid MAX_PARAM_VALUE_LENGTH) <;> cases m.has (lower n) <;>
      simp [h3, this, eq_comm]

theorem addParams_iff (xs : List (Str × Option Str)) (m m' : Params) (hl : m.length ≤ 20) :
    addParams xs m = some m' ↔ (∀ x ∈ xs, GoodParam x) ∧ m.length + xs.length ≤ 20 ∧ Reason.addAll (keyed xs) m = some m' := by
  induction xs generalizing m with
  | nil => simp [addParams, keyed, Reason.addAll, hl]
  | cons x xs ih =>
    obtain ⟨n, v⟩ := x
    rw [addParams, Option.bind_eq_some_iff]
    have ek : keyed ((n, v) :: xs) = (lower n, v) :: keyed xs := rfl
    rw [ek, Reason.addAll]
    constructor
    · rintro ⟨m1, h1, h2⟩
      obtain ⟨g, l, k, rfl⟩ := (addParam_iff _ _ _ _).mp h1
      have hlen := Via.blength_insert m (lower n) v k
      obtain ⟨h3, h4, h5⟩ := (ih _ (by omega)).mp h2
      rw [k]
      refine ⟨?_, by simp only [List.length_cons]; omega, by simpa using h5⟩
      intro x hx
      rcases List.mem_cons.mp hx with rfl | hx
      · exact g
      · exact h3 x hx
    · rintro ⟨h3, h4, h5⟩
      simp only [List.length_cons] at h4
      cases k : m.has (lower n) with
      | true => rw [k] at h5; simp at h5
      | false =>
        have hlen := Via.blength_insert m (lower n) v k
        refine ⟨_, (addParam_iff _ _ _ _).mpr ⟨h3 _ (by simp), by omega, k, rfl⟩, (ih _ (by omega)).mpr ⟨fun x hx => h3 x (by simp [hx]), by omega, ?_⟩⟩
        rw [k] at h5
        simpa using h5

theorem table_iff (xs m : List (Str × Option Str)) : addParams xs [] = some m ↔ Table xs m := by
  rw [addParams_iff xs [] m (by simp), Reason.addAll_table]
  unfold Reason.Spec.TableOf Table GoodParam keyed
  simp only [List.length_nil, Nat.zero_add, List.map_map, Function.comp_def, List.mem_map]
  constructor
  · rintro ⟨h1, h2, h3, h4, h5⟩
    exact ⟨h1, h2, h4, h3, fun y => (h5 y).trans ⟨fun ⟨x, a, b⟩ => ⟨x, a, b.symm⟩, fun ⟨x, a, b⟩ => ⟨x, a, b.symm⟩⟩⟩
  · rintro ⟨h1, h2, h4, h3, h5⟩
    exact ⟨h1, h2, h3, h4, fun y => (h5 y).trans ⟨fun ⟨x, a, b⟩ => ⟨x, a, b.symm⟩, fun ⟨x, a, b⟩ => ⟨x, a, b.symm⟩⟩⟩

theorem apply_iff (xs : List (Str × Option Str)) (h h' : Event) :
    Event.apply xs h = some h' ↔ ∃ i rest, IdAndRest xs i rest ∧ (∀ a, i = some a → h.id = none ∧ Good 256 a) ∧
      addParams rest h.params = some h'.params ∧ h'.package = h.package ∧ h'.id = i.or h.id := by
  induction xs generalizing h with
  | nil =>
    simp only [Event.apply, Option.some.injEq]
    constructor
    · rintro rfl; exact ⟨none, [], .nil, by simp, rfl, rfl, by simp⟩
    · rintro ⟨i, rest, hi, _, h2, h3, h4⟩
      cases hi
      simp only [addParams, Option.some.injEq] at h2
      cases h; cases h'
      simp_all
  | cons x xs ih =>
    obtain ⟨n, v⟩ := x
    unfold Event.apply
    by_cases hn : SameName n "id".toList
    · rw [if_pos ((sameName_iff _ _).mp hn)]
      cases v with
      | none =>
        refine ⟨fun h => (by cases h), ?_⟩
        rintro ⟨i, rest, hi, _⟩
        cases hi with
        | other h _ => exact absurd hn h
      | some a =>
        simp only
        cases hid : h.id with
        | some b =>
          refine ⟨fun h => (by simp at h), ?_⟩
          rintro ⟨i, rest, hi, h1, _⟩
          cases hi with
          | other h _ => exact absurd hn h
          | id _ _ => have := (h1 a rfl).1; cases this
        | none =>
          simp only [Option.isSome_none, Bool.false_eq_true, if_false, Event.withId]
          rw [show (valid MAX_ID_LENGTH a) = valid 256 a from rfl]
          cases hg : valid 256 a with
          | false =>
            refine ⟨fun h => (by simp at h), ?_⟩
            rintro ⟨i, rest, hi, h1, _⟩
            cases hi with
            | other h _ => exact absurd hn h
            | id _ _ => rw [(valid_iff _ _).mpr (h1 a rfl).2] at hg; cases hg
          | true =>
            simp only [if_true, Option.bind_some]
            rw [ih]
            constructor
            · rintro ⟨i, rest, hi, h1, h2, h3, h4⟩
              cases i with
              | some b => have := (h1 b rfl).1; cases this
              | none => exact ⟨some a, rest, .id hn hi, fun b e => by cases e; exact ⟨trivial, (valid_iff _ _).mp hg⟩, h2, h3, h4⟩
            · rintro ⟨i, rest, hi, h1, h2, h3, h4⟩
              cases hi with
              | other h _ => exact absurd hn h
              | id _ hi => exact ⟨none, rest, hi, by simp, h2, h3, h4⟩
    · rw [if_neg (fun e => hn ((sameName_iff _ _).mpr e))]
      cases ha : addParam h.params n v with
      | none =>
        refine ⟨fun h => (by cases h), ?_⟩
        rintro ⟨i, rest, hi, _, h2, _⟩
        cases hi with
        | id h _ => exact absurd h hn
        | other _ hi => rw [addParams, ha] at h2; cases h2
      | some m =>
        simp only
        rw [ih]
        constructor
        · rintro ⟨i, rest, hi, h1, h2, h3, h4⟩
          exact ⟨i, _, .other hn hi, h1, by rw [addParams, ha]; exact h2, h3, h4⟩
        · rintro ⟨i, rest, hi, h1, h2, h3, h4⟩
          cases hi with
          | id h _ => exact absurd h hn
          | other _ hi => rw [addParams, ha] at h2; exact ⟨i, _, hi, h1, h2, h3, h4⟩

/-- **C145**: which values are Event headers, and what they say. -/
theorem C145_event (v : Str) (h : Event) : parseEvent v = some h ↔ ∃ p ps xs rest, Pieces ';' v (p :: ps) ∧ Strips isWs p h.package ∧
    Good 64 h.package ∧ Items ps xs ∧ IdAndRest xs h.id rest ∧ (∀ i, h.id = some i → Good 256 i) ∧ Table rest h.params := by
  unfold parseEvent
  constructor
  · intro he
    split at he
    · cases he
    · rename_i p ps hs
      rw [Option.bind_eq_some_iff] at he
      obtain ⟨e, h1, h2⟩ := he
      unfold Event.new at h1
      split at h1
      · rename_i hg
        cases h1
        obtain ⟨i, rest, hi, hgi, h3, h4, h5⟩ := (apply_iff _ _ _).mp h2
        simp only [Option.or_none] at h5
        rw [← h5] at hi hgi
        simp only at h4
        exact ⟨p, ps, _, rest, (pieces_iff _ _ _).mpr hs.symm, (strips_trim _ _).mpr h4, h4 ▸ (valid_iff _ _).mp hg,
          (items_iff _ _).mpr rfl, hi, fun a e => (hgi a e).2, (table_iff _ _).mp h3⟩
      · cases h1
  · rintro ⟨p, ps, xs, rest, hp, hs, hg, hi, hr, hid, ht⟩
    rw [← (pieces_iff _ _ _).mp hp]
    have e := (strips_trim _ _).mp hs
    simp only [Option.bind_eq_some_iff]
    refine ⟨⟨h.package, none, []⟩, ?_, ?_⟩
    · unfold Event.new
      rw [← e]
      exact if_pos ((valid_iff _ _).mpr hg)
    · rw [← (items_iff _ _).mp hi]
      exact (apply_iff _ _ _).mpr ⟨h.id, rest, hr, fun a e => ⟨rfl, hid a e⟩, (table_iff _ _).mpr ht, rfl, by simp⟩

example : parseEvent "dialog ; ID=\"7\";;Sla; x=1".toList =
    some ⟨"dialog".toList, some "7".toList, [("sla".toList, none), ("x".toList, some "1".toList)]⟩ := by decide +kernel

theorem state_iff (s : Str) (st : State) : State.parse s = some st ↔ Stands s st := by
  have e : ∀ k : Str, lower k = k → (SameName s k ↔ lower s = k) := by
    intro k hk
    rw [sameName_iff]; unfold eqIgnoreCase; rw [beq_iff_eq, hk]
  have e1 := e "active".toList (by decide)
  have e2 := e "pending".toList (by decide)
  have e3 := e "terminated".toList (by decide)
  unfold State.parse
  constructor
  · intro h
    split at h
    · cases h; exact .active (e1.mpr ‹_›)
    · split at h
      · cases h; exact .pending (e2.mpr ‹_›)
      · split at h
        · cases h; exact .terminated (e3.mpr ‹_›)
        · split at h
          · cases h
            refine .other ?_ ((valid_iff _ _).mp ‹_›)
            simp only [List.mem_cons, List.not_mem_nil, or_false]
            rintro k (rfl | rfl | rfl)
            · rw [e1]; assumption
            · rw [e2]; assumption
            · rw [e3]; assumption
          · cases h
  · intro h
    cases h with
    | active h => rw [if_pos (e1.mp h)]
    | pending h =>
      rw [e2.mp h, if_neg (by decide), if_pos rfl]
    | terminated h =>
      rw [e3.mp h, if_neg (by decide), if_neg (by decide), if_pos rfl]
    | other h hg =>
      rw [if_neg (fun x => h "active" (by simp) (e1.mpr x)), if_neg (fun x => h "pending" (by simp) (e2.mpr x)),
        if_neg (fun x => h "terminated" (by simp) (e3.mpr x))]
      exact if_pos ((valid_iff _ _).mpr hg)

/-- **C145**: which values are Subscription-State headers, and what they say. -/
theorem C145_state (v : Str) (st : State) (m : Params) : parseState v = some (st, m) ↔
    ∃ p s ps xs, Pieces ';' v (p :: ps) ∧ Strips isWs p s ∧ Stands s st ∧ Items ps xs ∧ Table xs m := by
  unfold parseState
  constructor
  · intro he
    split at he
    · cases he
    · rename_i p ps hs
      simp only [Option.bind_eq_some_iff, Option.map_eq_some_iff] at he
      obtain ⟨s, h1, m', h2, h3⟩ := he
      cases h3
      exact ⟨p, _, ps, _, (pieces_iff _ _ _).mpr hs.symm, (strips_trim _ _).mpr rfl, (state_iff _ _).mp h1, (items_iff _ _).mpr rfl,
        (table_iff _ _).mp h2⟩
  · rintro ⟨p, s, ps, xs, hp, hs, hst, hi, ht⟩
    rw [← (pieces_iff _ _ _).mp hp]
    simp only [Option.bind_eq_some_iff, Option.map_eq_some_iff]
    rw [← (items_iff _ _).mp hi, ← (strips_trim _ _).mp hs]
    exact ⟨st, (state_iff _ _).mpr hst, m, (table_iff _ _).mpr ht, rfl⟩

example : parseState "Terminated;reason=noresource".toList = some (.terminated, [("reason".toList, some "noresource".toList)]) := by
  decide +kernel

/-- **C145**: the text of a state that was read stands for it again. -/
theorem C145_state_text {s : Str} {st : State} (h : Stands s st) : Stands st.text st ∧ SameName s st.text := by
  cases h with
  | active h => exact ⟨.active ((sameName_iff _ _).mpr (by decide)), h⟩
  | pending h => exact ⟨.pending ((sameName_iff _ _).mpr (by decide)), h⟩
  | terminated h => exact ⟨.terminated ((sameName_iff _ _).mpr (by decide)), h⟩
  | other h hg => exact ⟨.other h hg, (sameName_iff s s).mpr (beq_self_eq_true (lower s))⟩

/-- **C145** fails: white space before the sign of equality, which RFC 3261 allows, and a value in quotes that is no token are refused; a
quote on one side only is accepted. -/
theorem C145_form : parseEvent "dialog;id =7".toList = none ∧ parseState "active;x=\"a b\"".toList = none ∧
    parseEvent "dialog;id=\"7".toList = some ⟨"dialog".toList, some "7".toList, []⟩ := by decide +kernel

end Siphon.EventHdr
