import Verif.Prefs.Lemmas
set_option linter.unusedSimpArgs false
/-!
# C131: capability sets
-/
namespace Siphon.Prefs
open TextSpec HdrSpec Spec

/-! ## Building and matching -/

theorem built_allowed {f : Feats} (h : Built f) : ∀ t v, f t = some v → Allowed v := by
  induction h with
  | new => intro t v h; cases h
  | add hf h ih =>
    rename_i f g t0 v0
    unfold Feats.add at h
    split at h
    · rename_i hv
      simp only [Option.some.injEq] at h
      subst h
      intro t v ht
      unfold Feats.set at ht
      split at ht
      · simp only [Option.some.injEq] at ht
        subst ht
        exact (valid_iff _).mp hv
      · exact ih t v ht
    · cases h

/-- **C131.** A capability is stored exactly if its value is allowed; it then stands in the place of an earlier one with
the same tag, and the others are as before. -/
theorem C131_add (f : Feats) (t : Tag) (v : Value) :
    (f.add t v = none ↔ ¬ Allowed v) ∧
    ∀ g, f.add t v = some g → g t = some v ∧ ∀ x, x ≠ t → g x = f x := by
  unfold Feats.add
  rw [← valid_iff]
  split
  · rename_i h
    refine ⟨by simp [h], fun g hg => ?_⟩
    simp only [Option.some.injEq] at hg
    subst hg
    exact ⟨by simp [Feats.set], fun x hx => by simp [Feats.set, hx]⟩
  · rename_i h
    exact ⟨by simp [h], fun g hg => by simp at hg⟩

theorem absR_lt (x e : Rat) : absR x < e ↔ -e < x ∧ x < e := by
  unfold absR
  split <;> grind

theorem valuesMatch_iff (F : Floats) (a b : Value) (ha : ∀ l, a = .list l → l.length ≤ 20) (hb : ∀ l, b = .list l → l.length ≤ 20) :
    valuesMatch F a b = true ↔ Satisfies F a b := by
  cases a <;> cases b
  all_goals first
    | (refine ⟨fun h => ?_, fun h => ?_⟩ <;> first | (cases h; done) | skip)
    | skip
  case boolean.boolean.refine_1 x y =>
    simp only [valuesMatch, beq_iff_eq] at h; subst h; exact .boolean x
  case boolean.boolean.refine_2 x y => cases h; simp [valuesMatch]
  case token.token.refine_1 x y =>
    exact .token ((sameName_iff _ _).mpr h)
  case token.token.refine_2 x y => cases h; exact (sameName_iff _ _).mp (by assumption)
  case list.list.refine_1 x y =>
    simp only [valuesMatch] at h
    split at h
    · cases h
    · refine .list (fun z hz => ?_)
      have := (List.all_eq_true.mp h) z hz
      simp only [List.contains_iff_mem, List.mem_map] at this
      obtain ⟨w, hw, e⟩ := this
      exact ⟨w, hw, (sameName_iff _ _).mpr (by simp [eqIgnoreCase, e])⟩
  case list.list.refine_2 x y =>
    cases h with
    | list h =>
      have h1 := ha x rfl
      have h2 := hb y rfl
      simp only [valuesMatch]
      rw [if_neg (by unfold MAX_TOKEN_LIST_SIZE; simp; omega), List.all_eq_true]
      intro z hz
      obtain ⟨w, hw, e⟩ := h z hz
      simp only [List.contains_iff_mem, List.mem_map]
      refine ⟨w, hw, ?_⟩
      have := (sameName_iff _ _).mp e
      simp only [eqIgnoreCase, beq_iff_eq] at this
      exact this.symm
  case string.string.refine_1 x y =>
    simp only [valuesMatch, beq_iff_eq] at h; subst h; exact .string x
  case string.string.refine_2 x y => cases h; simp [valuesMatch]
  case numeric.numeric.refine_1 x y =>
    simp only [valuesMatch, decide_eq_true_eq, absR_lt] at h
    exact .numeric h.1 h.2
  case numeric.numeric.refine_2 x y =>
    cases h with
    | numeric h1 h2 =>
      simp only [valuesMatch, decide_eq_true_eq, absR_lt]
      exact ⟨h1, h2⟩
  all_goals (simp only [valuesMatch] at h; cases h)

/-- all lists have at most twenty tokens -/
def Sized (f : Feats) : Prop := ∀ t l, f t = some (.list l) → l.length ≤ 20

theorem built_sized {f : Feats} (h : Built f) : Sized f := by
  intro t l ht
  cases built_allowed h t _ ht
  assumption

theorem builtPref_sized {f : Feats} (h : BuiltPref f) : Sized f := by
  induction h with
  | new => intro t v h; cases h
  | add hf h ih =>
    rename_i f g t0 v0
    unfold addFeature at h
    split at h
    · cases h
    · split at h
      · rename_i hv
        simp only [Option.some.injEq] at h
        subst h
        intro t l ht
        unfold Feats.set at ht
        split at ht
        · simp only [Option.some.injEq] at ht
          subst ht
          simp only [Value.validPref, Bool.and_eq_true] at hv
          have := hv.1
          unfold MAX_TOKEN_LIST_SIZE at this
          simpa using this
        · exact ih t l ht
      · cases h

theorem meets_iff (F : Floats) (f r : Feats) (hf : Sized f) (hr : Sized r) (t : Tag) (v : Value) (h : r t = some v) :
    meets F f (t, v) = true ↔ Offers F f t v := by
  unfold meets Offers
  cases e : f t with
  | none => simp
  | some w =>
    simp only [Option.some.injEq, exists_eq_left']
    exact valuesMatch_iff F v w (fun l hl => hr t l (by rw [h, hl])) (fun l hl => hf t l (by rw [e, hl]))

/-- **C131.** A set of capabilities matches what is required exactly if it has, for each tag required, a value that
satisfies the required one. -/
theorem C131_matches (F : Floats) (f r : Feats) (hf : Built f) (hr : Built r) :
    f.matches F r = true ↔ ∀ t v, r t = some v → Offers F f t v := by
  unfold Feats.matches
  rw [List.all_eq_true]
  constructor
  · intro h t v ht
    exact (meets_iff F f r (built_sized hf) (built_sized hr) t v ht).mp (h (t, v) ((mem_entries r t v).mpr ht))
  · rintro h ⟨t, v⟩ he
    have ht := (mem_entries r t v).mp he
    exact (meets_iff F f r (built_sized hf) (built_sized hr) t v ht).mpr (h t v ht)

/-! ## Reading parameters -/

/-- **C131.** The value of a parameter is read exactly as described, and an error is returned in all other cases. -/
theorem C131_reads (F : Floats) (t : Tag) (o : Option Str) (v : Value) : Value.ofParam F t o = some v ↔ Reads F t o v :=
  (reads_iff F t o v).symm

theorem fold_none (F : Floats) (m : BMap (Option Str)) : m.foldl (fromParamsStep F) none = none := by
  induction m with
  | nil => rfl
  | cons e m ih => exact ih

theorem from_step (F : Floats) (f : Feats) (e : Str × Option Str) (g : Feats) : fromParamsStep F (some f) e = some g ↔
    ((∀ t, ¬ Names e.1 t) ∧ g = f) ∨ ∃ t v, Names e.1 t ∧ Reads F t e.2 v ∧ g = f.set t v := by
  unfold fromParamsStep
  cases h : Tag.ofParam e.1 with
  | none =>
    simp only [Option.some.injEq]
    constructor
    · rintro rfl
      exact Or.inl ⟨fun t ht => (by rw [names_iff, h] at ht; cases ht), rfl⟩
    · rintro (⟨_, rfl⟩ | ⟨t, _, ht, _⟩)
      · rfl
      · rw [names_iff, h] at ht; cases ht
  | some t =>
    simp only
    have hN := (names_iff e.1 t).mpr h
    cases hv : Value.ofParam F t e.2 with
    | none =>
      simp only
      constructor
      · intro hh; cases hh
      · rintro (⟨hno, _⟩ | ⟨t', v, ht, hr, _⟩)
        · exact absurd hN (hno t)
        · rw [names_iff, h] at ht
          cases ht
          rw [reads_iff, hv] at hr
          cases hr
    | some v =>
      have hr := (reads_iff F t e.2 v).mpr hv
      simp only [Feats.add, (valid_iff v).mpr (reads_allowed hr), if_true, Option.some.injEq]
      constructor
      · rintro rfl; exact Or.inr ⟨t, v, hN, hr, rfl⟩
      · rintro (⟨hno, _⟩ | ⟨t', v', ht, hr', rfl⟩)
        · exact absurd hN (hno t)
        · rw [names_iff, h] at ht
          cases ht
          rw [reads_iff, hv] at hr'
          cases hr'
          rfl

/-- the set read from parameters: the last parameter of a tag counts -/
def ReadAs (F : Floats) (m : List (Str × Option Str)) (base f : Feats) : Prop :=
  (∀ e ∈ m, ∀ t, Names e.1 t → ∃ v, Reads F t e.2 v) ∧
  ∀ t, ((∀ e ∈ m, ¬ Names e.1 t) ∧ f t = base t) ∨
    ∃ pre n o post v, m = pre ++ (n, o) :: post ∧ Names n t ∧ (∀ e ∈ post, ¬ Names e.1 t) ∧ Reads F t o v ∧ f t = some v

theorem names_unique {n : Str} {t t' : Tag} (h : Names n t) (h' : Names n t') : t = t' := by
  rw [names_iff] at h h'
  rw [h] at h'
  exact Option.some.inj h'

theorem reads_unique {F : Floats} {t : Tag} {o : Option Str} {v w : Value} (h : Reads F t o v) (h' : Reads F t o w) : v = w := by
  rw [reads_iff] at h h'
  rw [h] at h'
  exact Option.some.inj h'

theorem from_iff (F : Floats) : ∀ (m : BMap (Option Str)) (base f : Feats),
    m.foldl (fromParamsStep F) (some base) = some f ↔ ReadAs F m base f
  | [], base, f => by
    simp only [List.foldl_nil, Option.some.injEq]
    constructor
    · rintro rfl
      exact ⟨fun e he => by simp at he, fun t => Or.inl ⟨fun e he => by simp at he, rfl⟩⟩
    · rintro ⟨_, h⟩
      funext t
      rcases h t with ⟨_, h⟩ | ⟨pre, n, o, post, v, h, _⟩
      · exact h.symm
      · simp at h
  | e :: m, base, f => by
    rw [List.foldl_cons]
    cases hs : fromParamsStep F (some base) e with
    | none =>
      rw [fold_none]
      constructor
      · intro h; cases h
      · rintro ⟨h, _⟩
        exfalso
        by_cases hn : ∃ t, Names e.1 t
        · obtain ⟨t, ht⟩ := hn
          obtain ⟨v, hv⟩ := h e (by simp) t ht
          have := (from_step F base e (base.set t v)).mpr (Or.inr ⟨t, v, ht, hv, rfl⟩)
          rw [hs] at this
          cases this
        · have := (from_step F base e base).mpr (Or.inl ⟨fun t ht => hn ⟨t, ht⟩, rfl⟩)
          rw [hs] at this
          cases this
    | some g =>
      rw [from_iff F m g f]
      rcases (from_step F base e g).mp hs with ⟨hno, rfl⟩ | ⟨t0, v0, ht0, hv0, rfl⟩
      · constructor
        · rintro ⟨h1, h2⟩
          refine ⟨fun x hx t ht => ?_, fun t => ?_⟩
          · rcases List.mem_cons.mp hx with rfl | hx
            · exact absurd ht (hno t)
            · exact h1 x hx t ht
          · rcases h2 t with ⟨h3, h4⟩ | ⟨pre, n, o, post, v, rfl, h3⟩
            · refine Or.inl ⟨fun x hx => ?_, h4⟩
              rcases List.mem_cons.mp hx with rfl | hx
              · exact hno t
              · exact h3 x hx
            · exact Or.inr ⟨e :: pre, n, o, post, v, rfl, h3⟩
        · rintro ⟨h1, h2⟩
          refine ⟨fun x hx t ht => h1 x (List.mem_cons_of_mem _ hx) t ht, fun t => ?_⟩
          rcases h2 t with ⟨h3, h4⟩ | ⟨pre, n, o, post, v, hm, h3, h4⟩
          · exact Or.inl ⟨fun x hx => h3 x (List.mem_cons_of_mem _ hx), h4⟩
          · cases pre with
            | nil =>
              simp only [List.nil_append, List.cons.injEq] at hm
              rw [hm.1] at hno
              exact absurd h3 (hno t)
            | cons p pre =>
              simp only [List.cons_append, List.cons.injEq] at hm
              exact Or.inr ⟨pre, n, o, post, v, hm.2, h3, h4⟩
      · constructor
        · rintro ⟨h1, h2⟩
          refine ⟨fun x hx t ht => ?_, fun t => ?_⟩
          · rcases List.mem_cons.mp hx with rfl | hx
            · have := names_unique ht ht0
              subst this
              exact ⟨v0, hv0⟩
            · exact h1 x hx t ht
          · rcases h2 t with ⟨h3, h4⟩ | ⟨pre, n, o, post, v, rfl, h3⟩
            · by_cases htt : t = t0
              · subst htt
                exact Or.inr ⟨[], e.1, e.2, m, v0, rfl, ht0, h3, hv0, by rw [h4]; simp [Feats.set]⟩
              · refine Or.inl ⟨fun x hx => ?_, by rw [h4]; simp [Feats.set, htt]⟩
                rcases List.mem_cons.mp hx with rfl | hx
                · exact fun h => htt (names_unique h ht0)
                · exact h3 x hx
            · exact Or.inr ⟨e :: pre, n, o, post, v, rfl, h3⟩
        · rintro ⟨h1, h2⟩
          refine ⟨fun x hx t ht => h1 x (List.mem_cons_of_mem _ hx) t ht, fun t => ?_⟩
          rcases h2 t with ⟨h3, h4⟩ | ⟨pre, n, o, post, v, hm, h3, h4, h5, h6⟩
          · have htt : t ≠ t0 := by
              rintro rfl
              exact h3 e (by simp) ht0
            exact Or.inl ⟨fun x hx => h3 x (List.mem_cons_of_mem _ hx), by rw [h4]; simp [Feats.set, htt]⟩
          · cases pre with
            | nil =>
              simp only [List.nil_append, List.cons.injEq] at hm
              obtain ⟨rfl, rfl⟩ := hm
              have htt := names_unique h3 ht0
              subst htt
              have := reads_unique h5 hv0
              subst this
              exact Or.inl ⟨h4, by rw [h6]; simp [Feats.set]⟩
            | cons p pre =>
              simp only [List.cons_append, List.cons.injEq] at hm
              exact Or.inr ⟨pre, n, o, post, v, hm.2, h3, h4, h5, h6⟩

/-- **C131.** Parameters are read as a set of capabilities exactly if every parameter that belongs to a tag can be read;
each tag then has the value of its last parameter in the order of the names (names that differ in case name the same tag),
and no others are there. -/
theorem C131_from_params (F : Floats) (m : BMap (Option Str)) (f : Feats) :
    fromParams F m = some f ↔
    (∀ e ∈ m, ∀ t, Names e.1 t → ∃ v, Reads F t e.2 v) ∧
    ∀ t, ((∀ e ∈ m, ¬ Names e.1 t) ∧ f t = none) ∨
      ∃ pre n o post v, m = pre ++ (n, o) :: post ∧ Names n t ∧ (∀ e ∈ post, ¬ Names e.1 t) ∧ Reads F t o v ∧ f t = some v :=
  from_iff F m .new f

/-- **C131.** What is read from parameters could have been built by hand. -/
theorem C131_from_built (F : Floats) (m : BMap (Option Str)) (f : Feats) (h : fromParams F m = some f) : Built f := by
  have key : ∀ (m : BMap (Option Str)) (b g : Feats), Built b → m.foldl (fromParamsStep F) (some b) = some g → Built g := by
    intro m
    induction m with
    | nil => intro b g hb h; cases h; exact hb
    | cons e m ih =>
      intro b g hb h
      rw [List.foldl_cons] at h
      cases hs : fromParamsStep F (some b) e with
      | none => rw [hs, fold_none] at h; cases h
      | some b' =>
        rw [hs] at h
        refine ih b' g ?_ h
        rcases (from_step F b e b').mp hs with ⟨_, rfl⟩ | ⟨t, v, _, hv, rfl⟩
        · exact hb
        · refine .add hb (t := t) (v := v) ?_
          simp [Feats.add, (valid_iff v).mpr (reads_allowed hv)]
  exact key m .new f .new h

/-! ## Round trip -/

theorem names_param (t : Tag) : Names t.param t := by
  rw [names_iff]
  cases t <;> decide

theorem toParam_some {F : Floats} {v : Value} (h : Allowed v) : ∃ o, v.toParam F = some o := by
  unfold Value.toParam
  rw [(valid_iff v).mpr h]
  cases v with
  | list l =>
    simp only [Bool.not_true, Bool.false_eq_true, if_false]
    split <;> exact ⟨_, rfl⟩
  | _ => exact ⟨_, rfl⟩

theorem to_fold (F : Floats) : ∀ (l : List (Tag × Value)) (acc : BMap (Option Str)), UriP.Sorted acc →
    (l.map (·.1)).Nodup → (∀ e ∈ l, Allowed e.2) → (∀ e ∈ l, ∀ o, (e.1.param, o) ∉ acc) →
    ∃ m, l.foldl (toParamsStep F) (some acc) = some m ∧ UriP.Sorted m ∧
      ∀ n o, (n, o) ∈ m ↔ (n, o) ∈ acc ∨ ∃ t v, (t, v) ∈ l ∧ v ≠ .boolean false ∧ n = t.param ∧ v.toParam F = some o
  | [], acc, hs, _, _, _ => ⟨acc, rfl, hs, fun n o => by simp⟩
  | (t, v) :: l, acc, hs, hnd, ha, hno => by
    rw [List.foldl_cons]
    obtain ⟨o0, ho0⟩ := toParam_some (F := F) (ha (t, v) (by simp))
    simp only [List.map_cons, List.nodup_cons] at hnd
    have inj : ∀ t' v', (t', v') ∈ l → t'.param ≠ t.param := by
      intro t' v' hm e
      have : t' = t := names_unique (e ▸ names_param t') (names_param t)
      subst this
      exact hnd.1 (List.mem_map.mpr ⟨_, hm, rfl⟩)
    by_cases hv : v = .boolean false
    · have e : toParamsStep F (some acc) (t, v) = some acc := by
        subst hv
        rw [toParamsStep, ho0]
        exact if_pos rfl
      rw [e]
      obtain ⟨m, h1, h2, h3⟩ := to_fold F l acc hs hnd.2 (fun x hx => ha x (List.mem_cons_of_mem _ hx)) (fun x hx => hno x (List.mem_cons_of_mem _ hx))
      refine ⟨m, h1, h2, fun n o => ?_⟩
      rw [h3]
      constructor
      · rintro (h | ⟨t', v', h, h'⟩)
        · exact Or.inl h
        · exact Or.inr ⟨t', v', List.mem_cons_of_mem _ h, h'⟩
      · rintro (h | ⟨t', v', h, h', h''⟩)
        · exact Or.inl h
        · rcases List.mem_cons.mp h with e | h
          · cases e; exact absurd hv h'
          · exact Or.inr ⟨t', v', h, h', h''⟩
    · have e : toParamsStep F (some acc) (t, v) = some (acc.insert t.param o0) := by simp [toParamsStep, ho0, hv]
      rw [e]
      obtain ⟨m, h1, h2, h3⟩ := to_fold F l (acc.insert t.param o0) (UriP.sorted_insert _ _ hs) hnd.2 (fun x hx => ha x (List.mem_cons_of_mem _ hx)) (by
        intro x hx o hc
        rw [UriP.mem_insert_iff hs] at hc
        rcases hc with ⟨h, _⟩ | ⟨_, h⟩
        · exact inj x.1 x.2 hx h
        · exact hno x (List.mem_cons_of_mem _ hx) o h)
      refine ⟨m, h1, h2, fun n o => ?_⟩
      rw [h3, UriP.mem_insert_iff hs]
      constructor
      · rintro ((⟨rfl, rfl⟩ | ⟨_, h⟩) | ⟨t', v', h, h'⟩)
        · exact Or.inr ⟨t, v, by simp, hv, rfl, ho0⟩
        · exact Or.inl h
        · exact Or.inr ⟨t', v', List.mem_cons_of_mem _ h, h'⟩
      · rintro (h | ⟨t', v', h, h', rfl, h''⟩)
        · refine Or.inl (Or.inr ⟨?_, h⟩)
          rintro rfl
          exact hno (t, v) (by simp) o h
        · rcases List.mem_cons.mp h with e | h
          · cases e
            rw [ho0] at h''
            exact Or.inl (Or.inl ⟨rfl, (Option.some.inj h'').symm⟩)
          · exact Or.inr ⟨t', v', h, h', rfl, h''⟩

theorem entries_nodup (f : Feats) : (f.entries.map (·.1)).Nodup := by
  have key : ∀ l : List Tag, l.Nodup → ((l.filterMap (fun t => (f t).map (fun v => (t, v)))).map (·.1)).Nodup ∧
      ∀ t ∈ (l.filterMap (fun t => (f t).map (fun v => (t, v)))).map (·.1), t ∈ l := by
    intro l
    induction l with
    | nil => intro _; exact ⟨List.nodup_nil, fun t h => by simp at h⟩
    | cons t l ih =>
      intro h
      rw [List.nodup_cons] at h
      obtain ⟨h1, h2⟩ := ih h.2
      rw [List.filterMap_cons]
      cases e : f t with
      | none => exact ⟨h1, fun x hx => List.mem_cons_of_mem _ (h2 x hx)⟩
      | some v =>
        simp only [Option.map_some, List.map_cons, List.nodup_cons]
        refine ⟨⟨fun hm => h.1 (h2 t hm), h1⟩, fun x hx => ?_⟩
        rcases List.mem_cons.mp hx with rfl | hx
        · simp
        · exact List.mem_cons_of_mem _ (h2 x hx)
  exact (key Tag.all all_nodup).1

theorem to_params_raw (F : Floats) (f : Feats) (hf : Built f) :
    ∃ m, f.toParams F = some m ∧ m.Pairwise (fun a b => a.1 < b.1) ∧
      ∀ n o, (n, o) ∈ m ↔ ∃ t v, f t = some v ∧ v ≠ .boolean false ∧ n = t.param ∧ v.toParam F = some o := by
  obtain ⟨m, h1, h2, h3⟩ := to_fold F f.entries [] (by simp [UriP.Sorted]) (entries_nodup f)
    (fun e he => built_allowed hf e.1 e.2 ((mem_entries f e.1 e.2).mp he)) (fun e he o => by simp)
  refine ⟨m, h1, (UriText.sorted_iff m).mp h2, fun n o => ?_⟩
  rw [h3]
  simp only [List.not_mem_nil, false_or, mem_entries]

theorem joinComma_join (l : List Str) : joinComma l = join ',' l := by
  induction l with
  | nil => rfl
  | cons t l ih =>
    cases l with
    | nil => rfl
    | cons u l => rw [joinComma, ih, join_cons ',' t (u :: l) (by simp)] <;> simp

theorem written_iff (F : Floats) (v : Value) (ha : Allowed v) (o : Option Str) : Written F v o ↔ v ≠ .boolean false ∧ v.toParam F = some o := by
  unfold Value.toParam
  rw [(valid_iff v).mpr ha]
  simp only [Bool.not_true, Bool.false_eq_true, if_false]
  cases v with
  | boolean b =>
    cases b with
    | false => exact ⟨fun h => (by cases h), fun h => absurd rfl h.1⟩
    | true =>
      simp only [Option.some.injEq]
      exact ⟨fun h => (by cases h; exact ⟨by decide, rfl⟩), fun h => (by rw [← h.2]; exact .flag)⟩
  | token t =>
    simp only [Option.some.injEq]
    exact ⟨fun h => (by cases h; exact ⟨by simp, rfl⟩), fun h => (by rw [← h.2]; exact .token t)⟩
  | list l =>
    simp only
    by_cases h0 : l = []
    · subst h0
      simp only [List.isEmpty_nil, if_true, Option.some.injEq]
      exact ⟨fun h => (by cases h with | none => exact ⟨by simp, rfl⟩ | list h => exact absurd rfl h), fun h => (by rw [← h.2]; exact .none)⟩
    · have he : l.isEmpty = false := by simpa using h0
      simp only [he, Bool.false_eq_true, if_false, Option.some.injEq, joinComma_join]
      exact ⟨fun h => (by cases h with | none => exact absurd rfl h0 | list h => exact ⟨by simp, rfl⟩), fun h => (by rw [← h.2]; exact .list h0)⟩
  | string s =>
    simp only [Option.some.injEq]
    exact ⟨fun h => (by cases h; exact ⟨by simp, rfl⟩), fun h => (by rw [← h.2]; exact .string s)⟩
  | numeric n =>
    simp only [Option.some.injEq]
    exact ⟨fun h => (by cases h; exact ⟨by simp, rfl⟩), fun h => (by rw [← h.2]; exact .numeric n)⟩

/-- **C131.** Every set of capabilities can be written as parameters: each tag whose value is not `false` gives the
parameter with its name, in the order of the names, and there are no others. -/
theorem C131_to_params (F : Floats) (f : Feats) (hf : Built f) :
    ∃ m, f.toParams F = some m ∧ m.Pairwise (fun a b => a.1 < b.1) ∧
      ∀ n o, (n, o) ∈ m ↔ ∃ t v, f t = some v ∧ Written F v o ∧ n = t.param := by
  obtain ⟨m, h1, h2, h3⟩ := to_params_raw F f hf
  refine ⟨m, h1, h2, fun n o => ?_⟩
  rw [h3]
  constructor
  · rintro ⟨t, v, e1, e2, e3, e4⟩
    exact ⟨t, v, e1, (written_iff F v (built_allowed hf t v e1) o).mpr ⟨e2, e4⟩, e3⟩
  · rintro ⟨t, v, e1, e2, e3⟩
    obtain ⟨q1, q2⟩ := (written_iff F v (built_allowed hf t v e1) o).mp e2
    exact ⟨t, v, e1, q1, e3, q2⟩

/-- **C131.** The parameter of a tag is the one it is read from, in small letters. -/
theorem C131_param (t : Tag) : Names t.param t ∧ ∀ c ∈ t.param, 'a' ≤ c ∧ c ≤ 'z' := by
  refine ⟨names_param t, ?_⟩
  cases t <;> decide

theorem strips_quoted (y : Str) : Strips isWs ('"' :: y ++ ['"']) ('"' :: y ++ ['"']) := by
  rw [strips_trim]
  symm
  apply trim_of_trimmed
  constructor
  · intro c hc
    simp only [List.cons_append, List.head?_cons, Option.some.injEq] at hc
    subst hc; decide
  · intro c hc
    rw [List.getLast?_append] at hc
    simp only [List.getLast?_singleton, Option.some_or, Option.some.injEq] at hc
    subst hc; decide

/-- a value that is written as a parameter is read back as itself exactly if it fits its tag -/
theorem reads_back (F : Floats) (t : Tag) (v : Value) (o : Option Str) (ha : Allowed v) (hv : v ≠ .boolean false) (ho : v.toParam F = some o) :
    Reads F t o v ↔ Fits F t v := by
  have hval := (valid_iff v).mpr ha
  unfold Value.toParam at ho
  rw [hval] at ho
  simp only [Bool.not_true, Bool.false_eq_true, if_false] at ho
  cases v with
  | boolean b =>
    cases b with
    | false => exact absurd rfl hv
    | true =>
      simp only [Option.some.injEq] at ho
      subst ho
      exact ⟨fun _ => .flag, fun _ => .flag⟩
  | token x =>
    simp only [Option.some.injEq] at ho
    subst ho
    cases ha with
    | token hg =>
      constructor
      · intro h
        cases h with
        | token ht hs hr => exact .token ht hr
      · intro h
        cases h with
        | token ht hr => exact .token ht ((strips_trim _ _).mpr (trim_of_trimmed _ (goodToken_trimmed hg)).symm) hr hg
  | list l =>
    cases ha with
    | list hn hg =>
      simp only at ho
      split at ho
      · rename_i he
        simp only [Option.some.injEq] at ho
        subst ho
        rw [List.isEmpty_iff] at he
        subst he
        constructor
        · intro h; cases h
        · intro h; cases h with | list _ hne => exact absurd rfl hne
      · rename_i he
        have hne : l ≠ [] := by simpa using he
        simp only [Option.some.injEq] at ho
        subst ho
        constructor
        · intro h
          generalize hw : Value.list l = w at h
          cases h with
          | list ht => cases hw; exact .list ht hne
          | string => cases hw
          | numeric => cases hw
          | token => cases hw
        · intro h
          cases h with
          | list ht _ =>
            have hfl : l.filter (· ≠ []) = l := by
              rw [List.filter_eq_self]
              intro w hw
              simpa using (hg w hw).1
            have hst : Stripped l l := by
              rw [stripped_iff]
              have : l.map trim = l.map id := List.map_congr_left (fun w hw => trim_of_trimmed w (goodToken_trimmed (hg w hw)))
              rw [this, List.map_id]
            have hp : Pieces ',' (joinComma l) l := by
              rw [joinComma_join]
              exact ⟨hne, rfl, fun p hp => goodToken_no (hg p hp) ',' (by decide) (by decide)⟩
            have := Reads.list (F := F) ht (strips_quoted (joinComma l)) (Or.inl rfl) hp hst (by rw [hfl]; exact hn) (fun w hw _ => hg w hw)
            rw [hfl] at this
            exact this
  | string s =>
    simp only [Option.some.injEq] at ho
    subst ho
    cases ha with
    | string h1 h2 h3 =>
      constructor
      · intro h
        cases h with
        | string ht => exact .string ht
      · intro h
        cases h with
        | string ht => exact .string ht (strips_quoted s) h1 h2 h3
  | numeric n =>
    simp only [Option.some.injEq] at ho
    subst ho
    constructor
    · intro h
      have h' := h
      cases h with
      | numeric ht => exact .numeric ht h'
    · intro h
      cases h with
      | numeric ht h => exact h

/-- **C131.** Written as parameters and read again, a set of capabilities is the same exactly if every value has the type
its tag is read with. -/
theorem C131_roundtrip (F : Floats) (f : Feats) (hf : Built f) :
    (∃ m, f.toParams F = some m ∧ fromParams F m = some f) ↔ ∀ t v, f t = some v → Fits F t v := by
  obtain ⟨m, h1, h2, h3⟩ := to_params_raw F f hf
  have uniq : ∀ n o o', (n, o) ∈ m → (n, o') ∈ m → o = o' := by
    intro n o o' ha hb
    obtain ⟨t, v, e1, _, rfl, e3⟩ := (h3 _ _).mp ha
    obtain ⟨t', v', e1', _, e2', e3'⟩ := (h3 _ _).mp hb
    have : t' = t := names_unique (e2' ▸ names_param t') (names_param t)
    subst this
    rw [e1] at e1'
    cases e1'
    rw [e3] at e3'
    exact Option.some.inj e3'
  have ofName : ∀ n o t, (n, o) ∈ m → Names n t → ∃ v, f t = some v ∧ v ≠ .boolean false ∧ v.toParam F = some o := by
    intro n o t hm hn
    obtain ⟨t', v, e1, e2, rfl, e3⟩ := (h3 _ _).mp hm
    have := names_unique hn (names_param t')
    subst this
    exact ⟨v, e1, e2, e3⟩
  constructor
  · rintro ⟨m', hm', hr⟩ t v htv
    rw [h1] at hm'
    cases hm'
    have ha := built_allowed hf t v htv
    obtain ⟨_, hr2⟩ := (C131_from_params F m f).mp hr
    rcases hr2 t with ⟨_, e⟩ | ⟨pre, n, o, post, w, rfl, hn, _, hw, e⟩
    · rw [e] at htv; cases htv
    · rw [e] at htv
      cases htv
      obtain ⟨v', e1, e2, e3⟩ := ofName n o t (by simp) hn
      rw [e] at e1
      cases e1
      exact (reads_back F t _ o ha e2 e3).mp hw
  · intro h
    refine ⟨m, h1, (C131_from_params F m f).mpr ⟨?_, ?_⟩⟩
    · rintro ⟨n, o⟩ hm t hn
      obtain ⟨v, e1, e2, e3⟩ := ofName n o t hm hn
      exact ⟨v, (reads_back F t v o (built_allowed hf t v e1) e2 e3).mpr (h t v e1)⟩
    · intro t
      cases e : f t with
      | none =>
        refine Or.inl ⟨?_, rfl⟩
        rintro ⟨n, o⟩ hm hn
        obtain ⟨v, e1, _⟩ := ofName n o t hm hn
        rw [e] at e1; cases e1
      | some v =>
        right
        have hfit := h t v e
        have hb : v ≠ .boolean false := by rintro rfl; cases hfit
        obtain ⟨o, ho⟩ := toParam_some (F := F) (built_allowed hf t v e)
        have hm : (t.param, o) ∈ m := (h3 _ _).mpr ⟨t, v, e, hb, rfl, ho⟩
        obtain ⟨pre, post, rfl⟩ := List.append_of_mem hm
        refine ⟨pre, _, o, post, v, rfl, names_param t, ?_, (reads_back F t v o (built_allowed hf t v e) hb ho).mpr hfit, rfl⟩
        rintro ⟨n, o'⟩ hp hn
        obtain ⟨t', v', e1, _, rfl, _⟩ := (h3 n o').mp (by simp [hp])
        have := names_unique hn (names_param t')
        subst this
        have hlt := (List.pairwise_append.mp h2).2.1
        have := (List.pairwise_cons.mp hlt).1 _ hp
        exact absurd this (List.lt_irrefl _)

/-! ## Features of the caller's preferences -/

theorem validPref_iff (v : Value) : v.validPref = true ↔ AllowedPref v := by
  have same : v.valid = v.validPref → (∀ s, v ≠ .string s) → (v.validPref = true ↔ AllowedPref v) := by
    intro h hs
    rw [← h, valid_iff]
    exact ⟨.same, fun h => by cases h with | same h => exact h | string => exact absurd rfl (hs _)⟩
  cases v with
  | boolean b => exact same rfl (by simp)
  | numeric n => exact same rfl (by simp)
  | token t => exact same rfl (by simp)
  | list l => exact same rfl (by simp)
  | string s =>
    unfold Value.validPref MAX_STRING_LENGTH
    simp only [Bool.and_eq_true, decide_eq_true_eq, Bool.not_eq_true', List.any_eq_false, Bool.not_eq_true]
    constructor
    · rintro ⟨h1, h2⟩; exact .string h1 h2
    · intro h
      cases h with
      | same h => cases h with | string h1 h2 => exact ⟨h1, h2⟩
      | string h1 h2 => exact ⟨h1, h2⟩

/-- **C132.** A feature is added to an Accept-Contact or Reject-Contact exactly if its texts are within the limits; the limit
of fifty features is never reached. -/
theorem C132_feature (f : Feats) (t : Tag) (v : Value) :
    (addFeature f t v = none ↔ ¬ AllowedPref v) ∧
    ∀ g, addFeature f t v = some g → g t = some v ∧ ∀ x, x ≠ t → g x = f x := by
  have hl : f.entries.length ≤ 19 := by
    unfold Feats.entries
    exact Nat.le_trans (List.length_filterMap_le _ _) (by decide)
  unfold addFeature MAX_FEATURES
  rw [if_neg (by simp; omega), ← validPref_iff]
  split
  · rename_i h
    refine ⟨by simp [h], fun g hg => ?_⟩
    simp only [Option.some.injEq] at hg
    subst hg
    exact ⟨by simp [Feats.set], fun x hx => by simp [Feats.set, hx]⟩
  · rename_i h
    exact ⟨by simp [h], fun g hg => by simp at hg⟩

/-! ## Findings and examples -/

/-- Numbers: `5` and not-a-number are read, nothing else is. -/
def someFloats : Floats :=
  { rnd := id, text := fun n => if n = 5 then "5".toList else "0".toList
    read := fun s => if s = "5".toList then some (some 5) else if s = "nan".toList then some none else none }

/-- The set with one value. -/
def single (t : Tag) (v : Value) : Feats := Feats.new.set t v

/-- **C131, violated.** Values that can be added but do not survive: a token that looks like a number comes back as a number,
the token `nan` makes the whole set unreadable, a list for the language comes back as a string, an empty list as a flag, and
the flag `false` not at all. -/
theorem C131_lost :
    (Feats.new.add .mobility (.token "5".toList)).map (· .mobility) = some (some (.token "5".toList)) ∧
    ((((single .mobility (.token "5".toList)).toParams someFloats).bind (fromParams someFloats)).map (· .mobility) = some (some (.numeric 5))) ∧
    ((Feats.new.add .mobility (.token "nan".toList)).map (· .mobility) = some (some (.token "nan".toList))) ∧
    ((((single .mobility (.token "nan".toList)).toParams someFloats).bind (fromParams someFloats)).map (· .mobility) = none) ∧
    ((((single .language (.list ["en".toList, "de".toList])).toParams someFloats).bind (fromParams someFloats)).map (· .language) =
      some (some (.string "en,de".toList))) ∧
    ((((single .events (.list [])).toParams someFloats).bind (fromParams someFloats)).map (· .events) = some (some (.boolean true))) ∧
    ((((single .audio (.boolean false)).toParams someFloats).bind (fromParams someFloats)).map (· .audio) = some none) := by
  decide +kernel

/-- A set with several values that fit their tags. -/
def exCaps : Feats := ((single .audio (.boolean true)).set .methods (.list ["INVITE".toList, "BYE".toList])).set .description (.string "a b".toList)

example : Built exCaps ∧ ∀ t v, exCaps t = some v → Fits someFloats t v := by
  constructor
  · refine .add (f := (single .audio (.boolean true)).set .methods (.list ["INVITE".toList, "BYE".toList])) (t := .description)
      (v := .string "a b".toList) (.add (f := single .audio (.boolean true)) (t := .methods) (v := .list ["INVITE".toList, "BYE".toList])
      (.add (f := .new) (t := .audio) (v := .boolean true) .new ?_) ?_) ?_
    all_goals exact if_pos (by decide +kernel)
  · intro t v h
    cases t <;> simp only [exCaps, single, Feats.set, Feats.new, reduceCtorEq, if_false, if_true] at h <;> first | (cases h; done) | skip
    · cases h; exact .flag
    · cases h; exact .string (by unfold ListTag; decide)
    · cases h; exact .list (by unfold ListTag; decide) (by simp)

example : ((exCaps.toParams someFloats).map (fun m => m.map (·.1))) = some ["audio".toList, "description".toList, "methods".toList] := by
  decide +kernel

end Siphon.Prefs
