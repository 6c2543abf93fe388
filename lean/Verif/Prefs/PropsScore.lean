import Verif.Prefs.PropsCaps
/-!
# Caller preferences: which contacts stay, their scores, their order
-/
namespace Siphon.Prefs
open TextSpec HdrSpec Spec

/-! ## Rounding -/

theorem rounds_whole {rnd : Rat → Rat} (h : Rounds rnd) (n : Nat) (hn : n ≤ 1024) : rnd n = n := by
  have := h.grid (n * 1048576) (by omega)
  have e : (((n * 1048576 : Nat) : Rat) / 1048576) = n := by
    rw [Rat.natCast_mul]; grind
  rw [e] at this
  exact this

theorem rounds_zero {rnd : Rat → Rat} (h : Rounds rnd) : rnd 0 = 0 := rounds_whole h 0 (by omega)
theorem rounds_one {rnd : Rat → Rat} (h : Rounds rnd) : rnd 1 = 1 := rounds_whole h 1 (by omega)

/-- exact arithmetic is an instance -/
example : Rounds id := ⟨fun _ _ h => h, fun _ _ => rfl⟩

/-! ## Scores -/

theorem entries_length (f : Feats) : f.entries.length ≤ 19 := by
  unfold Feats.entries
  exact Nat.le_trans (List.length_filterMap_le _ _) (by decide)

theorem accept_loop (F : Floats) (hF : Rounds F.rnd) (req : Bool) (caps : Feats) : ∀ (es : List (Tag × Value)) (k : Nat), k + es.length ≤ 1024 →
    acceptLoop F req caps es k =
      if req && es.any (fun e => !meets F caps e) then none else some ((k + (es.filter (meets F caps)).length : Nat) : Rat)
  | [], k, _ => by simp [acceptLoop]
  | e :: es, k, h => by
    simp only [List.length_cons] at h
    rw [acceptLoop]
    cases hm : meets F caps e with
    | true =>
      have : F.rnd ((k : Rat) + 1) = ((k + 1 : Nat) : Rat) := by
        rw [← rounds_whole hF (k + 1) (by omega)]; congr 1
        rw [Rat.natCast_add]; rfl
      simp only [if_true, this, accept_loop F hF req caps es (k + 1) (by omega), List.any_cons, hm, Bool.not_true, Bool.false_or,
        List.filter_cons, List.length_cons]
      split
      · rfl
      · congr 2; omega
    | false =>
      cases req with
      | true => simp [hm]
      | false => simp [hm, accept_loop F hF false caps es k (by omega)]

theorem count_all (a : Feats) : Count (fun t => a t ≠ none) a.entries.length := by
  refine ⟨a.entries.map (·.1), entries_nodup a, by simp, fun t => ?_⟩
  rw [List.mem_map]
  constructor
  · rintro ⟨⟨t', v⟩, h, rfl⟩
    rw [(mem_entries a t' v).mp h]; simp
  · intro h
    cases e : a t with
    | none => exact absurd e h
    | some v => exact ⟨(t, v), (mem_entries a t v).mpr e, rfl⟩

theorem count_met (F : Floats) (a caps : Feats) (ha : Sized a) (hc : Sized caps) :
    Count (fun t => ∃ v, a t = some v ∧ Offers F caps t v) (a.entries.filter (meets F caps)).length := by
  refine ⟨(a.entries.filter (meets F caps)).map (·.1), ?_, by simp, fun t => ?_⟩
  · exact List.Nodup.sublist (List.Sublist.map _ List.filter_sublist) (entries_nodup a)
  · rw [List.mem_map]
    constructor
    · rintro ⟨⟨t', v⟩, h, rfl⟩
      rw [List.mem_filter, mem_entries] at h
      exact ⟨v, h.1, (meets_iff F caps a hc ha t' v h.1).mp h.2⟩
    · rintro ⟨v, h1, h2⟩
      refine ⟨(t, v), ?_, rfl⟩
      rw [List.mem_filter, mem_entries]
      exact ⟨h1, (meets_iff F caps a hc ha t v h1).mpr h2⟩

theorem count_unique {P : Tag → Prop} {n m : Nat} (h1 : Count P n) (h2 : Count P m) : n = m := by
  obtain ⟨l, hl, rfl, hp⟩ := h1
  obtain ⟨l', hl', rfl, hp'⟩ := h2
  exact ((List.perm_ext_iff_of_nodup hl hl').mpr (fun t => by rw [hp, hp'])).length_eq

theorem entries_nil (a : Feats) : a.entries = [] ↔ ∀ t, a t = none := by
  rw [List.eq_nil_iff_forall_not_mem]
  constructor
  · intro h t
    cases e : a t with
    | none => rfl
    | some v => exact absurd ((mem_entries a t v).mpr e) (h _)
  · rintro h ⟨t, v⟩ hm
    have := (mem_entries a t v).mp hm
    rw [h t] at this; cases this

theorem exists_feature (a : Feats) (h : a.entries ≠ []) : ∃ t, a t ≠ none := by
  cases he : a.entries with
  | nil => exact absurd he h
  | cons e es =>
    have : (e.1, e.2) ∈ a.entries := by rw [he]; simp
    exact ⟨e.1, by rw [(mem_entries a e.1 e.2).mp this]; simp⟩

theorem all_met (F : Floats) (a caps : Feats) (ha : Sized a) (hc : Sized caps) :
    a.entries.any (fun e => !meets F caps e) = false ↔ ∀ t v, a t = some v → Offers F caps t v := by
  rw [List.any_eq_false]
  constructor
  · intro h t v e
    have := h (t, v) ((mem_entries a t v).mpr e)
    rw [← meets_iff F caps a hc ha t v e]
    simpa using this
  · rintro h ⟨t, v⟩ hm
    have e := (mem_entries a t v).mp hm
    simp [(meets_iff F caps a hc ha t v e).mpr (h t v e)]

theorem share_range (F : Floats) (hF : Rounds F.rnd) (k n : Nat) (hk : k ≤ n) (hn : 0 < n) (h19 : n ≤ 19) :
    0 ≤ F.rnd (k / n) ∧ F.rnd (k / n) ≤ 1 ∧ (k < n → F.rnd (k / n) ≤ 31 / 32) ∧ (0 < k → 1 / 32 ≤ F.rnd (k / n)) ∧
    (k = n → F.rnd (k / n) = 1) ∧ (k = 0 → F.rnd (k / n) = 0) := by
  have pn : (0 : Rat) < n := by have := Rat.natCast_lt_natCast (a := 0) (b := n); exact this.mpr hn
  have kn : (k : Rat) ≤ n := Rat.natCast_le_natCast.mpr hk
  have k0 : (0 : Rat) ≤ k := Rat.natCast_le_natCast (a := 0).mpr (Nat.zero_le _)
  have le : ∀ c : Rat, (k : Rat) ≤ c * n → (k : Rat) / n ≤ c := by
    intro c h
    rw [← Rat.not_lt, Rat.lt_div_iff pn, Rat.not_lt]; exact h
  have ge : ∀ c : Rat, c * n ≤ (k : Rat) → c ≤ (k : Rat) / n := by
    intro c h
    rw [← Rat.not_lt, Rat.div_lt_iff pn, Rat.not_lt]; exact h
  have n19 : (n : Rat) ≤ 19 := Rat.natCast_le_natCast (b := 19).mpr h19
  refine ⟨?_, ?_, ?_, ?_, ?_, ?_⟩
  · have := hF.mono 0 _ (ge 0 (by grind))
    rw [rounds_zero hF] at this; exact this
  · have := hF.mono _ 1 (le 1 (by grind))
    rw [rounds_one hF] at this; exact this
  · intro h
    have : (k : Rat) + 1 ≤ n := by
      have := (Rat.natCast_le_natCast (a := k + 1)).mpr h
      rw [Rat.natCast_add] at this; exact this
    have := hF.mono _ _ (le (31 / 32) (by grind))
    have g := hF.grid 1015808 (by omega)
    have e : ((1015808 : Nat) : Rat) / 1048576 = 31 / 32 := by decide +kernel
    rw [e] at g
    rw [g] at this; exact this
  · intro h
    have : (1 : Rat) ≤ k := Rat.natCast_le_natCast (a := 1).mpr h
    have := hF.mono _ _ (ge (1 / 32) (by grind))
    have g := hF.grid 32768 (by omega)
    have e : ((32768 : Nat) : Rat) / 1048576 = 1 / 32 := by decide +kernel
    rw [e] at g
    rw [g] at this; exact this
  · rintro rfl
    rw [Rat.div_def, Rat.mul_inv_cancel _ (by grind), rounds_one hF]
  · rintro rfl
    rw [show (((0 : Nat) : Rat) / n) = 0 from by rw [Rat.div_def]; grind, rounds_zero hF]

/-- the three ways a score comes about -/
theorem score_cases (F : Floats) (hF : Rounds F.rnd) (a : Accept) (caps : Feats) (ha : Sized a.features) (hc : Sized caps) (ex : Bool) :
    ((∀ t, a.features t = none) ∧ a.score F caps ex = 1) ∨
    ((∃ t, a.features t ≠ none) ∧ a.explicit = true ∧ ex = false ∧ a.score F caps ex = 0) ∨
    ((∃ t, a.features t ≠ none) ∧ (a.explicit = true → ex = true) ∧ a.require = true ∧
      (¬ ∀ t v, a.features t = some v → Offers F caps t v) ∧ a.score F caps ex = 0) ∨
    ((∃ t, a.features t ≠ none) ∧ (a.explicit = true → ex = true) ∧
      (a.require = true → ∀ t v, a.features t = some v → Offers F caps t v) ∧
      a.score F caps ex = F.rnd (((a.features.entries.filter (meets F caps)).length : Rat) / (a.features.entries.length : Rat))) := by
  unfold Accept.score
  by_cases h0 : a.features.entries = []
  · left
    exact ⟨(entries_nil _).mp h0, by simp [h0]⟩
  · right
    have hex := exists_feature _ h0
    have he : a.features.entries.isEmpty = false := by simpa using h0
    simp only [he, Bool.false_eq_true, if_false]
    by_cases hx : (a.explicit && !ex) = true
    · left
      rw [if_pos hx]
      simp only [Bool.and_eq_true, Bool.not_eq_true'] at hx
      exact ⟨hex, hx.1, hx.2, rfl⟩
    · right
      rw [if_neg hx]
      have hx' : a.explicit = true → ex = true := by
        intro h; rw [h] at hx; simpa using hx
      have hl := accept_loop F hF a.require caps a.features.entries 0 (by have := entries_length a.features; omega)
      rw [show ((0 : Nat) : Rat) = 0 from rfl] at hl
      rw [hl, Nat.zero_add]
      cases hr : (a.require && a.features.entries.any (fun e => !meets F caps e)) with
      | true =>
        left
        rw [Bool.and_eq_true] at hr
        refine ⟨hex, hx', hr.1, ?_, rfl⟩
        rw [← all_met F a.features caps ha hc, hr.2]; simp
      | false =>
        right
        refine ⟨hex, hx', ?_, rfl⟩
        intro hq
        rw [hq, Bool.true_and] at hr
        exact (all_met F a.features caps ha hc).mp hr

theorem met_length (F : Floats) (a caps : Feats) (ha : Sized a) (hc : Sized caps) :
    (a.entries.filter (meets F caps)).length = a.entries.length ↔ ∀ t v, a t = some v → Offers F caps t v := by
  rw [← all_met F a caps ha hc, List.length_filter_eq_length_iff, List.any_eq_false]
  simp

theorem entries_pos (a : Feats) (h : ∃ t, a t ≠ none) : 0 < a.entries.length := by
  rw [List.length_pos_iff]
  intro h0
  obtain ⟨t, ht⟩ := h
  exact ht ((entries_nil a).mp h0 t)

/-- an Accept-Contact that requires discards exactly the contacts that do not meet it in full -/
theorem score_zero (F : Floats) (hF : Rounds F.rnd) (a : Accept) (caps : Feats) (ha : Sized a.features) (hc : Sized caps) (ex : Bool)
    (hr : a.require = true) : a.score F caps ex = 0 ↔ ¬ MeetsAll F a caps ex := by
  unfold MeetsAll
  rcases score_cases F hF a caps ha hc ex with ⟨h, e⟩ | ⟨⟨t, h⟩, h1, h2, e⟩ | ⟨⟨t, h⟩, _, _, h3, e⟩ | ⟨h, h1, h2, e⟩
  · rw [e]
    exact ⟨fun hh => absurd hh (by decide), fun hh => absurd (Or.inl h) hh⟩
  · rw [e]
    refine ⟨fun _ => ?_, fun _ => rfl⟩
    rintro (hh | ⟨hh, _⟩)
    · exact h (hh t)
    · rw [hh h1] at h2; cases h2
  · rw [e]
    refine ⟨fun _ => ?_, fun _ => rfl⟩
    rintro (hh | ⟨_, hh⟩)
    · exact h (hh t)
    · exact h3 hh
  · have hm := (met_length F a.features caps ha hc).mpr (h2 hr)
    have := (share_range F hF _ _ (Nat.le_of_eq hm) (entries_pos _ h) (entries_length _)).2.2.2.2.1 hm
    rw [e, this]
    exact ⟨fun hh => absurd hh (by decide), fun hh => absurd (Or.inr ⟨h1, h2 hr⟩) hh⟩

theorem scores_iff (F : Floats) (hF : Rounds F.rnd) (a : Accept) (caps : Feats) (ha : Sized a.features) (hc : Sized caps) (ex : Bool)
    (hk : a.require = true → MeetsAll F a caps ex) (x : Rat) : Scores F a caps ex x ↔ x = a.score F caps ex := by
  rcases score_cases F hF a caps ha hc ex with ⟨h, e⟩ | ⟨⟨t, h⟩, h1, h2, e⟩ | ⟨h, h1, hr, h3, e⟩ | ⟨h, h1, h2, e⟩
  · rw [e]
    constructor
    · intro hs
      cases hs with
      | empty => rfl
      | hidden h' => exact absurd (h _) h'.choose_spec
      | share h' => exact absurd (h _) h'.choose_spec
    · rintro rfl; exact .empty h
  · rw [e]
    constructor
    · intro hs
      cases hs with
      | empty h' => exact absurd (h' t) h
      | hidden => rfl
      | share _ he => rw [he h1] at h2; cases h2
    · rintro rfl; exact .hidden ⟨t, h⟩ h1 h2
  · exfalso
    rcases hk hr with hh | ⟨_, hh⟩
    · obtain ⟨t, ht⟩ := h; exact ht (hh t)
    · exact h3 hh
  · rw [e]
    constructor
    · intro hs
      cases hs with
      | empty h' => exact absurd (h' _) h.choose_spec
      | hidden _ he hx => rw [h1 he] at hx; cases hx
      | share _ _ hn hk' =>
        rw [count_unique hn (count_all a.features), count_unique hk' (count_met F a.features caps ha hc)]
    · rintro rfl
      exact .share h h1 (count_all _) (count_met F a.features caps ha hc)

theorem total_cases (F : Floats) (hF : Rounds F.rnd) (caps : Feats) (hc : Sized caps) (ex : Bool) : ∀ (as : List Accept) (s : Rat),
    (∀ a ∈ as, Sized a.features) →
    (total F caps ex as s = none ↔ ∃ a ∈ as, a.require = true ∧ ¬ MeetsAll F a caps ex) ∧
    ∀ z, total F caps ex as s = some z ↔ (∀ a ∈ as, a.require = true → MeetsAll F a caps ex) ∧ Sums F caps ex as s z
  | [], s, _ => by
    refine ⟨by simp [total], fun z => ?_⟩
    simp only [total, Option.some.injEq, List.not_mem_nil, false_implies, implies_true, true_and]
    constructor
    · rintro rfl; exact .nil _
    · intro h; cases h; rfl
  | a :: as, s, hs => by
    have ha := hs a (by simp)
    obtain ⟨ih1, ih2⟩ := total_cases F hF caps hc ex as (F.rnd (s + a.score F caps ex)) (fun b hb => hs b (List.mem_cons_of_mem _ hb))
    rw [total]
    by_cases hr : (a.require && a.score F caps ex == 0) = true
    · rw [if_pos hr]
      rw [Bool.and_eq_true, beq_iff_eq] at hr
      have hn := (score_zero F hF a caps ha hc ex hr.1).mp hr.2
      refine ⟨⟨fun _ => ⟨a, by simp, hr.1, hn⟩, fun _ => rfl⟩, fun z => ⟨fun h => (by cases h), fun h => absurd (h.1 a (by simp) hr.1) hn⟩⟩
    · rw [if_neg hr]
      have hk : a.require = true → MeetsAll F a caps ex := by
        intro hq
        rw [hq, Bool.true_and, beq_iff_eq, score_zero F hF a caps ha hc ex hq] at hr
        exact Classical.not_not.mp hr
      refine ⟨?_, fun z => ?_⟩
      · rw [ih1]
        constructor
        · rintro ⟨b, hb, h⟩; exact ⟨b, List.mem_cons_of_mem _ hb, h⟩
        · rintro ⟨b, hb, h1, h2⟩
          rcases List.mem_cons.mp hb with rfl | hb
          · exact absurd (hk h1) h2
          · exact ⟨b, hb, h1, h2⟩
      · rw [ih2]
        constructor
        · rintro ⟨h1, h2⟩
          refine ⟨?_, .cons ((scores_iff F hF a caps ha hc ex hk _).mpr rfl) h2⟩
          intro b hb
          rcases List.mem_cons.mp hb with rfl | hb
          · exact hk
          · exact h1 b hb
        · rintro ⟨h1, h2⟩
          refine ⟨fun b hb => h1 b (List.mem_cons_of_mem _ hb), ?_⟩
          cases h2 with
          | cons hx ht => rw [(scores_iff F hF a caps ha hc ex hk _).mp hx] at ht; exact ht

theorem rejects_iff (F : Floats) (r caps : Feats) (hr : Sized r) (hc : Sized caps) (ex : Bool) :
    rejects F r caps ex = true ↔ Refused F r caps ex := by
  unfold rejects Refused
  by_cases h0 : r.entries = []
  · simp only [h0, List.isEmpty_nil, if_true, Bool.false_eq_true, false_iff]
    rintro ⟨_, ⟨t, ht⟩, _⟩
    exact ht ((entries_nil r).mp h0 t)
  · have he : r.entries.isEmpty = false := by simpa using h0
    simp only [he, Bool.false_eq_true, if_false]
    cases ex with
    | false => simp
    | true =>
      simp only [Bool.not_true, Bool.false_eq_true, if_false, true_and]
      rw [← all_met F r caps hr hc]
      constructor
      · intro h
        refine ⟨exists_feature r h0, ?_⟩
        rw [List.any_eq_false]
        intro e hm
        simpa using List.all_eq_true.mp h e hm
      · rintro ⟨_, h⟩
        rw [List.all_eq_true]
        intro e hm
        simpa using List.any_eq_false.mp h e hm

theorem assess_iff (F : Floats) (hF : Rounds F.rnd) (accepts : List Accept) (rejs : List Feats) (c : Contact) (caps : Feats)
    (ha : ∀ a ∈ accepts, Sized a.features) (hr : ∀ r ∈ rejs, Sized r) (hc : Sized caps) :
    (assess F accepts rejs (c, caps) = none ↔ ¬ Kept F accepts rejs c caps) ∧
    ∀ c', assess F accepts rejs (c, caps) = some c' ↔ Kept F accepts rejs c caps ∧
      (accepts = [] ∧ c' = c ∨ accepts ≠ [] ∧ ∃ s, Sums F caps c.explicit accepts 0 s ∧ c' = { c with qa := F.rnd (s / accepts.length) }) := by
  have key : ∀ c', assess F accepts rejs (c, caps) = some c' ↔ Kept F accepts rejs c caps ∧
      (accepts = [] ∧ c' = c ∨ accepts ≠ [] ∧ ∃ s, Sums F caps c.explicit accepts 0 s ∧ c' = { c with qa := F.rnd (s / accepts.length) }) := by
    intro c'
    unfold assess Kept
    simp only
    cases hj : rejs.any (fun r => rejects F r caps c.explicit) with
    | true =>
      simp only [if_true]
      obtain ⟨r, h1, h2⟩ := List.any_eq_true.mp hj
      exact ⟨fun h => (by cases h), fun h => absurd ((rejects_iff F r caps (hr r h1) hc _).mp h2) (h.1.1 r h1)⟩
    | false =>
      have hn : ∀ r ∈ rejs, ¬ Refused F r caps c.explicit := by
        intro r h1 h2
        have := List.any_eq_false.mp hj r h1
        rw [rejects_iff F r caps (hr r h1) hc] at this
        exact this h2
      simp only [Bool.false_eq_true, if_false]
      by_cases h0 : accepts = []
      · subst h0
        simp only [List.isEmpty_nil, if_true, Option.some.injEq]
        exact ⟨fun h => ⟨⟨hn, by simp⟩, Or.inl ⟨trivial, h.symm⟩⟩, fun h => by
          rcases h.2 with ⟨_, h⟩ | ⟨h, _⟩
          · exact h.symm
          · exact absurd rfl h⟩
      · have he : accepts.isEmpty = false := by simpa using h0
        simp only [he, Bool.false_eq_true, if_false]
        obtain ⟨_, t2⟩ := total_cases F hF caps hc c.explicit accepts 0 ha
        rw [Option.map_eq_some_iff]
        constructor
        · rintro ⟨z, hz, rfl⟩
          obtain ⟨h1, h2⟩ := (t2 z).mp hz
          exact ⟨⟨hn, h1⟩, Or.inr ⟨h0, z, h2, rfl⟩⟩
        · rintro ⟨⟨_, h1⟩, ⟨h, _⟩ | ⟨_, z, h2, rfl⟩⟩
          · exact absurd h h0
          · exact ⟨z, (t2 z).mpr ⟨h1, h2⟩, rfl⟩
  refine ⟨?_, key⟩
  constructor
  · intro h hk
    by_cases h0 : accepts = []
    · have := (key c).mpr ⟨hk, Or.inl ⟨h0, rfl⟩⟩
      rw [h] at this; cases this
    · obtain ⟨t1, t2⟩ := total_cases F hF caps hc c.explicit accepts 0 ha
      cases ht : total F caps c.explicit accepts 0 with
      | none =>
        obtain ⟨a, h1, h2, h3⟩ := t1.mp ht
        exact h3 (hk.2 a h1 h2)
      | some z =>
        have := (key _).mpr ⟨hk, Or.inr ⟨h0, z, ((t2 z).mp ht).2, rfl⟩⟩
        rw [h] at this; cases this
  · intro hk
    cases e : assess F accepts rejs (c, caps) with
    | none => rfl
    | some c' => exact absurd ((key c').mp e).1 hk

theorem stays_iff (F : Floats) (hF : Rounds F.rnd) (accepts : List Accept) (rejs : List Feats) (ha : ∀ a ∈ accepts, Sized a.features)
    (hr : ∀ r ∈ rejs, Sized r) : ∀ (cs : List Contact) (fs : List Feats), (∀ f ∈ fs, Sized f) → cs.length = fs.length → ∀ out,
    (cs.zip fs).filterMap (assess F accepts rejs) = out ↔ Stays F accepts rejs cs fs out
  | [], [], _, _, out => by
    simp only [List.zip_nil_left, List.filterMap_nil]
    exact ⟨fun h => h ▸ .nil, fun h => by cases h; rfl⟩
  | [], _ :: _, _, h, _ => by simp at h
  | _ :: _, [], _, h, _ => by simp at h
  | c :: cs, f :: fs, hc, hlen, out => by
    have hcf := hc f (by simp)
    simp only [List.length_cons, Nat.add_right_cancel_iff] at hlen
    have ih := stays_iff F hF accepts rejs ha hr cs fs (fun g hg => hc g (List.mem_cons_of_mem _ hg)) hlen
    obtain ⟨k1, k2⟩ := assess_iff F hF accepts rejs c f ha hr hcf
    rw [List.zip_cons_cons, List.filterMap_cons]
    cases e : assess F accepts rejs (c, f) with
    | none =>
      simp only
      have hk := k1.mp e
      rw [ih]
      constructor
      · exact .drop hk
      · intro h
        cases h with
        | drop _ ht => exact ht
        | same h => exact absurd h hk
        | scored h => exact absurd h hk
    | some c' =>
      simp only
      obtain ⟨hk, hcase⟩ := (k2 c').mp e
      constructor
      · rintro rfl
        rcases hcase with ⟨h0, rfl⟩ | ⟨h0, s, hs, rfl⟩
        · exact .same hk h0 ((ih _).mp rfl)
        · exact .scored hk h0 hs ((ih _).mp rfl)
      · intro h
        cases h with
        | drop h _ => exact absurd hk h
        | same _ h0 ht =>
          rw [(ih _).mpr ht]
          rcases hcase with ⟨_, rfl⟩ | ⟨h1, _⟩
          · rfl
          · exact absurd h0 h1
        | scored _ h0 hs ht =>
          rw [(ih _).mpr ht]
          have := (k2 _).mpr ⟨hk, Or.inr ⟨h0, _, hs, rfl⟩⟩
          rw [e] at this
          rw [Option.some.inj this]

/-! ## Order -/

theorem better_iff (b a : Contact) : better b a = true ↔ Before b a := by
  unfold better Before
  by_cases h : b.q = a.q
  · rw [if_pos h, decide_eq_true_eq]
    constructor
    · intro h'; exact Or.inr ⟨h.symm, h'⟩
    · rintro (h' | ⟨_, h'⟩)
      · grind
      · exact h'
  · rw [if_neg h, decide_eq_true_eq]
    constructor
    · exact Or.inl
    · rintro (h' | ⟨h', _⟩)
      · exact h'
      · exact absurd h'.symm h

theorem before_trans {a b c : Contact} (h1 : Before a b) (h2 : ¬ Before c b) : Before a c := by
  unfold Before at *; grind

theorem not_before_trans {a b c : Contact} (h1 : ¬ Before b a) (h2 : ¬ Before c b) : ¬ Before c a := by
  unfold Before at *; grind

theorem before_asymm {a b : Contact} (h : Before a b) : ¬ Before b a := by
  unfold Before at *; grind

theorem place_perm (x : Contact) : ∀ l, (place x l).Perm (x :: l)
  | [] => .refl _
  | y :: ys => by
    rw [place]; split
    · exact ((place_perm x ys).cons y).trans (.swap x y ys)
    · exact .refl _

theorem place_filter (x : Contact) (q qa : Rat) : ∀ l, l.Pairwise (fun a b => ¬ Before b a) →
    (place x l).filter (fun c => decide (c.q = q ∧ c.qa = qa)) = (x :: l).filter (fun c => decide (c.q = q ∧ c.qa = qa))
  | [], _ => rfl
  | y :: ys, h => by
    rw [place]; split
    · rename_i hb
      rw [better_iff] at hb
      rw [List.filter_cons, place_filter x q qa ys (List.pairwise_cons.mp h).2]
      simp only [List.filter_cons, decide_eq_true_eq]
      by_cases hx : x.q = q ∧ x.qa = qa
      · have : ¬ (y.q = q ∧ y.qa = qa) := by
          rintro ⟨h1, h2⟩
          unfold Before at hb
          grind
        simp only [if_pos hx, if_neg this]
      · simp only [if_neg hx]
    · rfl

theorem place_sorted (x : Contact) : ∀ l, l.Pairwise (fun a b => ¬ Before b a) → (place x l).Pairwise (fun a b => ¬ Before b a)
  | [], _ => by simp [place]
  | y :: ys, h => by
    obtain ⟨h1, h2⟩ := List.pairwise_cons.mp h
    rw [place]; split
    · rename_i hb
      rw [better_iff] at hb
      rw [List.pairwise_cons]
      refine ⟨?_, place_sorted x ys h2⟩
      intro b hm
      rcases List.mem_cons.mp ((place_perm x ys).mem_iff.mp hm) with rfl | hm
      · exact before_asymm hb
      · exact h1 b hm
    · rename_i hb
      rw [better_iff] at hb
      rw [List.pairwise_cons]
      refine ⟨?_, h⟩
      intro b hm
      rcases List.mem_cons.mp hm with rfl | hm
      · exact hb
      · exact not_before_trans hb (h1 b hm)

theorem order_inOrder : ∀ l, InOrder l (order l)
  | [] => ⟨.refl _, .nil, fun _ _ => rfl⟩
  | x :: xs => by
    obtain ⟨h1, h2, h3⟩ := order_inOrder xs
    rw [order]
    refine ⟨(place_perm x _).trans (h1.cons x), place_sorted x _ h2, fun q qa => ?_⟩
    rw [place_filter x q qa _ h2, List.filter_cons, List.filter_cons, h3]

theorem inOrder_unique : ∀ (u v : List Contact), u.Perm v → u.Pairwise (fun a b => ¬ Before b a) → v.Pairwise (fun a b => ¬ Before b a) →
    (∀ q qa : Rat, u.filter (fun c => decide (c.q = q ∧ c.qa = qa)) = v.filter (fun c => decide (c.q = q ∧ c.qa = qa))) → u = v
  | [], v, hp, _, _, _ => by rw [hp.symm.eq_nil]
  | a :: u, [], hp, _, _, _ => by have := hp.length_eq; simp at this
  | a :: u, b :: v, hp, hu, hv, hf => by
    obtain ⟨u1, u2⟩ := List.pairwise_cons.mp hu
    obtain ⟨v1, v2⟩ := List.pairwise_cons.mp hv
    have hab : ¬ Before a b := by
      rcases List.mem_cons.mp (hp.mem_iff.mp (List.mem_cons_self : a ∈ a :: u)) with rfl | h
      · intro h; exact before_asymm h h
      · exact v1 a h
    have hba : ¬ Before b a := by
      rcases List.mem_cons.mp (hp.mem_iff.mpr (List.mem_cons_self : b ∈ b :: v)) with rfl | h
      · intro h; exact before_asymm h h
      · exact u1 b h
    have hq : b.q = a.q ∧ b.qa = a.qa := by unfold Before at hab hba; grind
    have := hf a.q a.qa
    simp only [List.filter_cons, hq, and_self, decide_true, if_true, List.cons.injEq] at this
    obtain ⟨rfl, _⟩ := this
    congr 1
    refine inOrder_unique u v hp.cons_inv u2 v2 ?_
    intro q qa
    have := hf q qa
    simp only [List.filter_cons] at this
    split at this
    · exact (List.cons.inj this).2
    · exact this

/-- **C132.** Contacts are scored exactly as described: those that a Reject-Contact refuses or that miss a required
Accept-Contact are left out, the others get the mean of the shares of features they meet, and they come in the order of the
callee's preference, then the caller's, equally good ones in their old order. It fails exactly beyond the limits. -/
theorem C132_score (F : Floats) (hF : Rounds F.rnd) (contacts : List Contact) (accepts : List Accept) (rejs caps : List Feats)
    (ha : ∀ a ∈ accepts, BuiltPref a.features) (hr : ∀ r ∈ rejs, BuiltPref r) (hc : ∀ f ∈ caps, Built f) (out : List Contact) :
    scoreContacts F contacts accepts rejs caps = some out ↔
      (contacts.length ≤ 1024 ∧ accepts.length ≤ 32 ∧ rejs.length ≤ 32 ∧ caps.length = contacts.length) ∧
      ∃ l, Stays F accepts rejs contacts caps l ∧ InOrder l out := by
  have hs := stays_iff F hF accepts rejs (fun a h => builtPref_sized (ha a h)) (fun r h => builtPref_sized (hr r h)) contacts caps
    (fun f h => built_sized (hc f h))
  unfold scoreContacts MAX_CONTACTS MAX_ACCEPT_HEADERS MAX_REJECT_HEADERS
  split
  · exact ⟨fun h => (by cases h), fun h => absurd h.1.1 (by omega)⟩
  · split
    · exact ⟨fun h => (by cases h), fun h => absurd h.1.2.1 (by omega)⟩
    · split
      · exact ⟨fun h => (by cases h), fun h => absurd h.1.2.2.1 (by omega)⟩
      · split
        · rename_i h4
          exact ⟨fun h => (by cases h), fun h => absurd h.1.2.2.2.symm h4⟩
        · rename_i h4
          have h4 : contacts.length = caps.length := Classical.not_not.mp h4
          simp only [Option.some.injEq]
          constructor
          · rintro rfl
            exact ⟨⟨by omega, by omega, by omega, h4.symm⟩, _, (hs h4 _).mp rfl, order_inOrder _⟩
          · rintro ⟨_, l, hl, h1, h2, h3⟩
            rw [(hs h4 l).mpr hl]
            obtain ⟨o1, o2, o3⟩ := order_inOrder l
            exact inOrder_unique _ _ (o1.trans h1.symm) o2 h2 (fun q qa => by rw [o3, h3])

/-! ## What the scores say -/

theorem misses_zero (F : Floats) (a caps : Feats) (ha : Sized a) (hc : Sized caps) :
    (a.entries.filter (meets F caps)).length = 0 ↔ ∀ t v, a t = some v → ¬ Offers F caps t v := by
  rw [List.length_eq_zero_iff, List.filter_eq_nil_iff]
  constructor
  · intro h t v e
    rw [← meets_iff F caps a hc ha t v e]
    exact h (t, v) ((mem_entries a t v).mpr e)
  · rintro h ⟨t, v⟩ hm
    have e := (mem_entries a t v).mp hm
    rw [meets_iff F caps a hc ha t v e]
    exact h t v e

theorem scores_range (F : Floats) (hF : Rounds F.rnd) (a : Accept) (caps : Feats) (ha : Sized a.features) (hc : Sized caps) (ex : Bool)
    (x : Rat) (h : Scores F a caps ex x) :
    0 ≤ x ∧ x ≤ 1 ∧ (MeetsAll F a caps ex → x = 1) ∧ (¬ MeetsAll F a caps ex → x ≤ 31 / 32) ∧
    (Misses F a caps ex → x = 0) ∧ (¬ Misses F a caps ex → 1 / 32 ≤ x) := by
  unfold MeetsAll Misses
  cases h with
  | empty h =>
    refine ⟨by decide, by decide, fun _ => rfl, fun hh => absurd (Or.inl h) hh, ?_, fun _ => by decide +kernel⟩
    rintro ⟨⟨t, ht⟩, _⟩; exact absurd (h t) ht
  | hidden h he hx =>
    refine ⟨by decide, by decide, ?_, fun _ => by decide +kernel, fun _ => rfl, fun hh => absurd ⟨h, Or.inl ⟨he, hx⟩⟩ hh⟩
    rintro (hh | ⟨hh, _⟩)
    · obtain ⟨t, ht⟩ := h; exact absurd (hh t) ht
    · rw [hh he] at hx; cases hx
  | share h he hn hk =>
    have en := count_unique hn (count_all a.features)
    have ek := count_unique hk (count_met F a.features caps ha hc)
    subst en ek
    have hle := List.length_filter_le (meets F caps) a.features.entries
    obtain ⟨r1, r2, r3, r4, r5, r6⟩ := share_range F hF _ _ hle (entries_pos _ h) (entries_length _)
    refine ⟨r1, r2, ?_, ?_, ?_, ?_⟩
    · rintro (hh | ⟨_, hh⟩)
      · obtain ⟨t, ht⟩ := h; exact absurd (hh t) ht
      · exact r5 ((met_length F a.features caps ha hc).mpr hh)
    · intro hh
      refine r3 (Nat.lt_of_le_of_ne hle ?_)
      intro e
      exact hh (Or.inr ⟨he, (met_length F a.features caps ha hc).mp e⟩)
    · rintro ⟨_, ⟨h1, h2⟩ | hh⟩
      · rw [he h1] at h2; cases h2
      · exact r6 ((misses_zero F a.features caps ha hc).mpr hh)
    · intro hh
      refine r4 (Nat.pos_of_ne_zero ?_)
      intro e
      exact hh ⟨h, Or.inr ((misses_zero F a.features caps ha hc).mp e)⟩

theorem rounds_below {rnd : Rat → Rat} (h : Rounds rnd) (n : Nat) (hn : n + 1 ≤ 1024) : rnd ((n : Rat) + 31 / 32) = (n : Rat) + 31 / 32 := by
  have := h.grid (n * 1048576 + 1015808) (by omega)
  have e : (((n * 1048576 + 1015808 : Nat) : Rat) / 1048576) = (n : Rat) + 31 / 32 := by
    rw [Rat.natCast_add, Rat.natCast_mul]; grind
  rw [e] at this
  exact this

theorem rounds_low {rnd : Rat → Rat} (h : Rounds rnd) : rnd (1 / 32) = 1 / 32 := by
  have := h.grid 32768 (by omega)
  have e : (((32768 : Nat) : Rat) / 1048576) = 1 / 32 := by decide +kernel
  rw [e] at this
  exact this

theorem sums_range (F : Floats) (hF : Rounds F.rnd) (caps : Feats) (hc : Sized caps) (ex : Bool) : ∀ (as : List Accept) (s z : Rat) (i : Nat),
    (∀ a ∈ as, Sized a.features) → i + as.length ≤ 1024 → 0 ≤ s → s ≤ i → Sums F caps ex as s z →
    0 ≤ z ∧ z ≤ (i + as.length : Nat) ∧
    (s = i → (∀ a ∈ as, MeetsAll F a caps ex) → z = (i + as.length : Nat)) ∧
    (s ≤ i - 1 / 32 ∨ (∃ a ∈ as, ¬ MeetsAll F a caps ex) → z ≤ (i + as.length : Nat) - 1 / 32) ∧
    (s = 0 → (∀ a ∈ as, Misses F a caps ex) → z = 0) ∧
    (1 / 32 ≤ s ∨ (∃ a ∈ as, ¬ Misses F a caps ex) → 1 / 32 ≤ z)
  | [], s, z, i, _, _, h0, hi, h => by
    cases h
    refine ⟨h0, hi, fun h _ => h, ?_, fun h _ => h, ?_⟩
    · rintro (h | ⟨a, ha, _⟩)
      · exact h
      · cases ha
    · rintro (h | ⟨a, ha, _⟩)
      · exact h
      · cases ha
  | a :: as, s, z, i, hs, hl, h0, hi, h => by
    simp only [List.length_cons] at hl
    cases h with
    | cons hx ht =>
      rename_i x
      obtain ⟨x0, x1, xm, xm', xz, xz'⟩ := scores_range F hF a caps (hs a (by simp)) hc ex x hx
      have e1 : (((i + 1 : Nat)) : Rat) = (i : Rat) + 1 := by rw [Rat.natCast_add]; rfl
      have w1 : F.rnd ((i : Rat) + 1) = (i : Rat) + 1 := by rw [← e1]; exact rounds_whole hF (i + 1) (by omega)
      have lo : 0 ≤ F.rnd (s + x) := by
        have := hF.mono 0 (s + x) (by grind)
        rw [rounds_zero hF] at this; exact this
      have hi' : F.rnd (s + x) ≤ (i + 1 : Nat) := by
        have := hF.mono (s + x) ((i : Rat) + 1) (by grind)
        rw [w1, ← e1] at this; exact this
      obtain ⟨r1, r2, r3, r4, r5, r6⟩ := sums_range F hF caps hc ex as _ z (i + 1) (fun b hb => hs b (List.mem_cons_of_mem _ hb)) (by omega) lo hi' ht
      have el : i + (a :: as).length = i + 1 + as.length := by simp only [List.length_cons]; omega
      rw [el]
      refine ⟨r1, r2, ?_, ?_, ?_, ?_⟩
      · intro hsi hall
        refine r3 ?_ (fun b hb => hall b (List.mem_cons_of_mem _ hb))
        rw [hsi, xm (hall a (by simp)), w1, e1]
      · intro hh
        have below : s + x ≤ (i : Rat) + 31 / 32 → F.rnd (s + x) ≤ ((i + 1 : Nat) : Rat) - 1 / 32 := by
          intro hb
          have := hF.mono _ _ hb
          rw [rounds_below hF i (by omega)] at this
          rw [e1]; grind
        rcases hh with hh | ⟨b, hb, hn⟩
        · exact r4 (Or.inl (below (by grind)))
        · rcases List.mem_cons.mp hb with rfl | hb
          · exact r4 (Or.inl (below (by have := xm' hn; grind)))
          · exact r4 (Or.inr ⟨b, hb, hn⟩)
      · intro hs0 hall
        refine r5 ?_ (fun b hb => hall b (List.mem_cons_of_mem _ hb))
        rw [hs0, xz (hall a (by simp)), show (0 : Rat) + 0 = 0 from by decide +kernel, rounds_zero hF]
      · intro hh
        have above : 1 / 32 ≤ s + x → 1 / 32 ≤ F.rnd (s + x) := by
          intro hb
          have := hF.mono _ _ hb
          rw [rounds_low hF] at this; exact this
        rcases hh with hh | ⟨b, hb, hn⟩
        · exact r6 (Or.inl (above (by grind)))
        · rcases List.mem_cons.mp hb with rfl | hb
          · exact r6 (Or.inl (above (by have := xz' hn; grind)))
          · exact r6 (Or.inr ⟨b, hb, hn⟩)

theorem mean_range (F : Floats) (hF : Rounds F.rnd) (caps : Feats) (hc : Sized caps) (ex : Bool) (as : List Accept) (s : Rat)
    (ha : ∀ a ∈ as, Sized a.features) (h0 : as ≠ []) (hl : as.length ≤ 32) (h : Sums F caps ex as 0 s) :
    0 ≤ F.rnd (s / as.length) ∧ F.rnd (s / as.length) ≤ 1 ∧
    (F.rnd (s / as.length) = 1 ↔ ∀ a ∈ as, MeetsAll F a caps ex) ∧ (F.rnd (s / as.length) = 0 ↔ ∀ a ∈ as, Misses F a caps ex) := by
  obtain ⟨r1, r2, r3, r4, r5, r6⟩ := sums_range F hF caps hc ex as 0 s 0 ha (by omega) (by decide +kernel) (by decide +kernel) h
  rw [Nat.zero_add] at r2 r3 r4
  have n0 : 0 < as.length := List.length_pos_iff.mpr h0
  generalize as.length = n at *
  have pn : (0 : Rat) < n := Rat.natCast_pos.mpr n0
  have n32 : (n : Rat) ≤ 32 := Rat.natCast_le_natCast (b := 32).mpr hl
  have le : ∀ c : Rat, s ≤ c * n → s / n ≤ c := by
    intro c h
    rw [← Rat.not_lt, Rat.lt_div_iff pn, Rat.not_lt]; exact h
  have ge : ∀ c : Rat, c * n ≤ s → c ≤ s / n := by
    intro c h
    rw [← Rat.not_lt, Rat.div_lt_iff pn, Rat.not_lt]; exact h
  refine ⟨?_, ?_, ?_, ?_⟩
  · have := hF.mono 0 _ (ge 0 (by grind))
    rw [rounds_zero hF] at this; exact this
  · have := hF.mono _ 1 (le 1 (by grind))
    rw [rounds_one hF] at this; exact this
  · constructor
    · intro h1
      apply Classical.byContradiction
      intro hn
      have hz := r4 (Or.inr (by
        apply Classical.byContradiction
        intro h'
        exact hn (fun a ha => Classical.byContradiction (fun hm => h' ⟨a, ha, hm⟩))))
      have := hF.mono _ _ (le (1023 / 1024) (by grind))
      have g := hF.grid 1047552 (by omega)
      have e : (((1047552 : Nat) : Rat) / 1048576) = 1023 / 1024 := by decide +kernel
      rw [e] at g
      rw [g, h1] at this
      exact absurd this (by decide +kernel)
    · intro h1
      rw [r3 rfl h1, Rat.div_def, Rat.mul_inv_cancel _ (by grind), rounds_one hF]
  · constructor
    · intro h1
      apply Classical.byContradiction
      intro hn
      have hz := r6 (Or.inr (by
        apply Classical.byContradiction
        intro h'
        exact hn (fun a ha => Classical.byContradiction (fun hm => h' ⟨a, ha, hm⟩))))
      have := hF.mono _ _ (ge (1 / 1024) (by grind))
      have g := hF.grid 1024 (by omega)
      have e : (((1024 : Nat) : Rat) / 1048576) = 1 / 1024 := by decide +kernel
      rw [e] at g
      rw [g, h1] at this
      exact absurd this (by decide +kernel)
    · intro h1
      rw [r5 rfl h1, show ((0 : Rat) / n) = 0 from by rw [Rat.div_def]; grind, rounds_zero hF]

theorem stays_mem {F : Floats} {accepts : List Accept} {rejs : List Feats} {cs : List Contact} {fs : List Feats} {out : List Contact}
    (h : Stays F accepts rejs cs fs out) (h0 : accepts ≠ []) (c' : Contact) (hm : c' ∈ out) :
    ∃ c f s, (c, f) ∈ cs.zip fs ∧ Sums F f c.explicit accepts 0 s ∧ c' = { c with qa := F.rnd (s / accepts.length) } := by
  induction h with
  | nil => cases hm
  | drop _ _ ih =>
    obtain ⟨c, f, s, h1, h2⟩ := ih hm
    exact ⟨c, f, s, List.mem_cons_of_mem _ h1, h2⟩
  | same _ ha => exact absurd ha h0
  | scored _ _ hs _ ih =>
    rcases List.mem_cons.mp hm with rfl | hm
    · exact ⟨_, _, _, List.mem_cons_self, hs, rfl⟩
    · obtain ⟨c, f, s, h1, h2⟩ := ih hm
      exact ⟨c, f, s, List.mem_cons_of_mem _ h1, h2⟩

/-- **C132.** If there is an Accept-Contact, the caller preference of each contact that comes back lies between 0 and 1. It
is 1 exactly if the contact meets every Accept-Contact in full, and 0 exactly if it meets nothing of any of them. -/
theorem C132_range (F : Floats) (hF : Rounds F.rnd) (contacts : List Contact) (accepts : List Accept) (rejs caps : List Feats)
    (ha : ∀ a ∈ accepts, BuiltPref a.features) (hr : ∀ r ∈ rejs, BuiltPref r) (hc : ∀ f ∈ caps, Built f) (out : List Contact)
    (h : scoreContacts F contacts accepts rejs caps = some out) (h0 : accepts ≠ []) (c' : Contact) (hm : c' ∈ out) :
    ∃ c f, (c, f) ∈ contacts.zip caps ∧ c'.uri = c.uri ∧ c'.q = c.q ∧ 0 ≤ c'.qa ∧ c'.qa ≤ 1 ∧
      (c'.qa = 1 ↔ ∀ a ∈ accepts, MeetsAll F a f c.explicit) ∧ (c'.qa = 0 ↔ ∀ a ∈ accepts, Misses F a f c.explicit) := by
  obtain ⟨⟨_, hl, _, _⟩, l, hs, hp, _⟩ := (C132_score F hF contacts accepts rejs caps ha hr hc out).mp h
  obtain ⟨c, f, s, h1, h2, rfl⟩ := stays_mem hs h0 c' (hp.mem_iff.mp hm)
  have hf := hc f (List.of_mem_zip h1).2
  obtain ⟨m1, m2, m3, m4⟩ := mean_range F hF f (built_sized hf) c.explicit accepts s (fun a h => builtPref_sized (ha a h)) h0 hl h2
  exact ⟨c, f, h1, rfl, rfl, m1, m2, m3, m4⟩

/-- **C132.** The `q` of an Accept-Contact makes no difference. -/
theorem C132_q_unused (F : Floats) (contacts : List Contact) (accepts : List Accept) (rejs caps : List Feats) (q : Accept → Option Rat) :
    scoreContacts F contacts (accepts.map (fun a => { a with q := q a })) rejs caps = scoreContacts F contacts accepts rejs caps := by
  have ht : ∀ (caps : Feats) (ex : Bool) (as : List Accept) (s : Rat),
      total F caps ex (as.map (fun a => { a with q := q a })) s = total F caps ex as s := by
    intro caps ex as
    induction as with
    | nil => intro s; rfl
    | cons a as ih =>
      intro s
      rw [List.map_cons, total, total, ih]
      rfl
  have hA : assess F (accepts.map (fun a => { a with q := q a })) rejs = assess F accepts rejs := by
    funext p
    unfold assess
    rw [ht, List.isEmpty_map, List.length_map]
  unfold scoreContacts
  rw [List.length_map, hA]

/-- **C132.** A new contact has the preference given, brought between 0 and 1, the caller preference 1, and no features. -/
theorem C132_new (uri : Str) (q : Rat) : ∃ p, Contact.new uri q = ⟨uri, p, 1, false⟩ ∧ 0 ≤ p ∧ p ≤ 1 ∧ (0 ≤ q → q ≤ 1 → p = q) ∧
    (q ≤ 0 → p = 0) ∧ (1 ≤ q → p = 1) := by
  refine ⟨clamp q, rfl, ?_, ?_, ?_, ?_, ?_⟩ <;> unfold clamp <;> grind

/-! ## Findings and examples -/

/-- Exact arithmetic; numbers are not read. -/
def exact : Floats := { rnd := id, text := fun _ => [], read := fun _ => none }

theorem exact_rounds : Rounds exact.rnd := ⟨fun _ _ h => h, fun _ _ => rfl⟩

/-- Asks for audio. -/
def wantsAudio (require : Bool) : Accept := ⟨Feats.new.set .audio (.boolean true), require, false, none⟩

/-- **C132, violated.** RFC 3841, and the comment on the function, make contacts without features immune, with the caller
preference 1. Here such a contact is dropped if the Accept-Contact requires, and has the preference 0 otherwise. -/
theorem C132_not_immune :
    scoreContacts exact [Contact.new "sip:a".toList 1] [wantsAudio true] [] [.new] = some [] ∧
    scoreContacts exact [Contact.new "sip:a".toList 1] [wantsAudio false] [] [.new] = some [⟨"sip:a".toList, 1, 0, false⟩] := by
  decide +kernel

/-- Two of the three contacts stay; the one with audio and video comes first of those with the same `q`. -/
example : scoreContacts exact [⟨"a".toList, 1/2, 1, true⟩, ⟨"b".toList, 1/2, 1, true⟩, ⟨"c".toList, 1, 1, true⟩]
    [⟨(Feats.new.set .audio (.boolean true)).set .video (.boolean true), false, false, none⟩] [Feats.new.set .automata (.boolean true)]
    [Feats.new.set .audio (.boolean true), (Feats.new.set .audio (.boolean true)).set .video (.boolean true), Feats.new.set .automata (.boolean true)] =
    some [⟨"b".toList, 1/2, 1, true⟩, ⟨"a".toList, 1/2, 1/2, true⟩] := by
  decide +kernel

/-- The hypotheses of the theorems hold here. -/
example : BuiltPref (wantsAudio true).features ∧ Built .new ∧ Built (Feats.new.set .audio (.boolean true)) := by
  refine ⟨.add .new (t := .audio) (v := .boolean true) ?_, .new, .add .new (t := .audio) (v := .boolean true) ?_⟩
  · rfl
  · rfl

end Siphon.Prefs
