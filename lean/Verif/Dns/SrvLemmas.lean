import Verif.Dns.Spec
/-! # Lemmas about the choice among SRV records -/
namespace Siphon.Dns
open Spec

/-- The sum of the weights. -/
abbrev wsum (rs : List SrvRec) : Nat := (rs.map (fun r => r.1)).sum

theorem position_iff : ∀ (rs : List SrvRec) (pick cum i : Nat), cum ≤ pick →
    (position rs pick cum = some i ↔
      ∃ r, rs[i]? = some r ∧ cum + wsum (rs.take i) ≤ pick ∧ pick < cum + wsum (rs.take i) + r.1)
  | [], pick, cum, i, _ => by simp [position]
  | r :: rs, pick, cum, i, hc => by
    simp only [position]
    by_cases h : cum + r.1 > pick
    · rw [if_pos h]
      cases i with
      | zero => simp [wsum]; omega
      | succ i =>
        constructor
        · intro e; cases e
        · rintro ⟨x, _, h1, _⟩
          simp [wsum] at h1
          omega
    · rw [if_neg h]
      cases i with
      | zero =>
        constructor
        · intro e
          cases hp : position rs pick (cum + r.1) <;> rw [hp] at e <;> cases e
        · rintro ⟨x, hx, _, h2⟩
          simp at hx
          subst hx
          simp [wsum] at h2
          omega
      | succ i =>
        have := position_iff rs pick (cum + r.1) i (by omega)
        have e1 : (position rs pick (cum + r.1)).map (· + 1) = some (i + 1) ↔ position rs pick (cum + r.1) = some i := by
          cases position rs pick (cum + r.1) <;> simp
        rw [e1, this]
        simp only [List.getElem?_cons_succ, List.take_succ_cons, wsum, List.map_cons, List.sum_cons]
        constructor
        · rintro ⟨x, a, b, c⟩; exact ⟨x, a, by omega, by omega⟩
        · rintro ⟨x, a, b, c⟩; exact ⟨x, a, by omega, by omega⟩

theorem position_some : ∀ (rs : List SrvRec) (pick cum : Nat), cum ≤ pick → pick < cum + wsum rs →
    ∃ i, position rs pick cum = some i
  | [], pick, cum, hc, h => by simp [wsum] at h; omega
  | r :: rs, pick, cum, hc, h => by
    simp only [position]
    by_cases h' : cum + r.1 > pick
    · exact ⟨0, if_pos h'⟩
    · obtain ⟨i, hi⟩ := position_some rs pick (cum + r.1) (by omega) (by simp [wsum] at h ⊢; omega)
      exact ⟨i + 1, by rw [if_neg h', hi]; rfl⟩

theorem wsum_zero {rs : List SrvRec} (h : wsum rs = 0) : ∀ r ∈ rs, r.1 = 0 := by
  intro r hr
  exact List.sum_eq_zero_iff_forall_eq_nat.mp h r.1 (List.mem_map.mpr ⟨r, hr, rfl⟩)

theorem wsum_perm {a b : List SrvRec} (h : a.Perm b) : wsum a = wsum b := (h.map _).sum_nat

/-- Nothing of weight zero before something of positive weight. -/
abbrev ZeroLast (rs : List SrvRec) : Prop := rs.Pairwise (fun a b => a.1 = 0 → b.1 = 0)

/-- The next record exists, and it has positive weight if any has. -/
theorem chooseIdx_spec (rs : List SrvRec) (x : Nat) (hne : rs ≠ []) :
    ∃ r, rs[chooseIdx rs x]? = some r ∧ (r.1 = 0 → ∀ s ∈ rs, s.1 = 0) := by
  unfold chooseIdx
  by_cases h : wsum rs = 0
  · have hz := wsum_zero h
    simp only [wsum] at h
    simp only [h, if_true]
    have hl : x % rs.length < rs.length := Nat.mod_lt _ (List.length_pos_iff.mpr hne)
    exact ⟨rs[x % rs.length], List.getElem?_eq_getElem hl, fun _ => hz⟩
  · have hp : 0 < wsum rs := by omega
    obtain ⟨i, hi⟩ := position_some rs (x % wsum rs) 0 (Nat.zero_le _) (by have := Nat.mod_lt x hp; omega)
    obtain ⟨r, h1, h2, h3⟩ := (position_iff rs _ 0 i (Nat.zero_le _)).mp hi
    simp only [wsum] at h hi
    simp only [h, if_false, hi]
    exact ⟨r, h1, fun hr => absurd h3 (by omega)⟩

theorem getElem?_perm {α : Type} {rs : List α} {i : Nat} {r : α} (h : rs[i]? = some r) : rs.Perm (r :: rs.eraseIdx i) := by
  obtain ⟨hl, rfl⟩ := List.getElem?_eq_some_iff.mp h
  have := List.eraseIdx_eq_take_drop_succ rs i
  rw [this]
  have e : rs = rs.take i ++ rs[i] :: rs.drop (i + 1) := by simp
  conv => lhs; rw [e]
  exact List.perm_middle

/-- The loop gives all records, those of weight zero last. -/
theorem selectGo_sound : ∀ (f : Nat) (rs : List SrvRec) (rng : List Nat), rs.length ≤ f →
    ∃ out, (selectGo f rs rng).1 = out.map (fun r => (r.2.1, r.2.2)) ∧ out.Perm rs ∧ ZeroLast out
  | 0, rs, rng, h => by
    have : rs = [] := List.length_eq_zero_iff.mp (by omega)
    subst this
    exact ⟨[], rfl, List.Perm.refl _, List.Pairwise.nil⟩
  | f + 1, rs, rng, h => by
    simp only [selectGo]
    by_cases he : rs = []
    · subst he; exact ⟨[], rfl, List.Perm.refl _, List.Pairwise.nil⟩
    · obtain ⟨r, h1, h2⟩ := chooseIdx_spec rs (draw rng).1 he
      have hp := getElem?_perm h1
      obtain ⟨out, e, p, z⟩ := selectGo_sound f (rs.eraseIdx (chooseIdx rs (draw rng).1)) (draw rng).2 (by
        have := hp.length_eq
        simp only [List.length_cons] at this
        omega)
      have he' : rs.isEmpty = false := by cases rs with | nil => exact absurd rfl he | cons _ _ => rfl
      simp only [he', Bool.false_eq_true, if_false, h1]
      refine ⟨r :: out, by rw [e]; rfl, (p.cons r).trans hp.symm, List.pairwise_cons.mpr ⟨?_, z⟩⟩
      intro s hs hr
      exact h2 hr s (hp.mem_iff.mpr (List.mem_cons_of_mem _ (p.mem_iff.mp hs)))

theorem wsum_split (a : List SrvRec) (r : SrvRec) (b : List SrvRec) : wsum (a ++ r :: b) = wsum a + (r.1 + wsum b) := by
  simp [wsum]

/-- Every record that may come next is chosen for some number. -/
theorem chooseIdx_reach (rs : List SrvRec) (r : SrvRec) (hr : r ∈ rs) (hz : r.1 = 0 → ∀ s ∈ rs, s.1 = 0) :
    ∃ x, rs[chooseIdx rs x]? = some r := by
  obtain ⟨i, hl, rfl⟩ := List.getElem_of_mem hr
  unfold chooseIdx
  by_cases h : wsum rs = 0
  · simp only [wsum] at h
    simp only [h, if_true]
    exact ⟨i, by rw [Nat.mod_eq_of_lt hl]; exact List.getElem?_eq_getElem hl⟩
  · have hpos : 0 < rs[i].1 := by
      rcases Nat.eq_zero_or_pos rs[i].1 with h0 | h0
      · refine absurd ?_ h
        refine List.sum_eq_zero_iff_forall_eq_nat.mpr ?_
        intro n hn
        obtain ⟨s, hs, rfl⟩ := List.mem_map.mp hn
        exact hz h0 s hs
      · exact h0
    have e : rs = rs.take i ++ rs[i] :: rs.drop (i + 1) := by simp
    have hs : wsum rs = wsum (rs.take i) + (rs[i].1 + wsum (rs.drop (i + 1))) := by
      conv => lhs; rw [e]
      exact wsum_split _ _ _
    have hp := (position_iff rs (wsum (rs.take i)) 0 i (Nat.zero_le _)).mpr
      ⟨rs[i], List.getElem?_eq_getElem hl, by omega, by omega⟩
    refine ⟨wsum (rs.take i), ?_⟩
    simp only [wsum] at h hp hs
    simp only [h, if_false, wsum]
    rw [Nat.mod_eq_of_lt (by omega), hp]
    exact List.getElem?_eq_getElem hl

/-- Every order with those of weight zero last is given for some numbers. -/
theorem selectGo_reach : ∀ (f : Nat) (rs out : List SrvRec), rs.length ≤ f → out.Perm rs → ZeroLast out →
    ∃ xs, ∀ rest, selectGo f rs (xs ++ rest) = (out.map (fun r => (r.2.1, r.2.2)), rest)
  | 0, rs, out, h, hp, _ => by
    have : rs = [] := List.length_eq_zero_iff.mp (by omega)
    subst this
    rw [hp.eq_nil]
    exact ⟨[], fun rest => rfl⟩
  | f + 1, rs, out, h, hp, hz => by
    cases out with
    | nil =>
      rw [hp.symm.eq_nil]
      exact ⟨[], fun rest => rfl⟩
    | cons r out =>
      have hm : r ∈ rs := hp.mem_iff.mp List.mem_cons_self
      obtain ⟨hz1, hz2⟩ := List.pairwise_cons.mp hz
      obtain ⟨x, hx⟩ := chooseIdx_reach rs r hm (by
        intro h0 s hs
        rcases List.mem_cons.mp (hp.mem_iff.mpr hs) with rfl | hs
        · exact h0
        · exact hz1 s hs h0)
      have hp' := getElem?_perm hx
      have hq : out.Perm (rs.eraseIdx (chooseIdx rs x)) := (List.perm_cons r).mp (hp.trans hp')
      obtain ⟨xs, hxs⟩ := selectGo_reach f (rs.eraseIdx (chooseIdx rs x)) out (by
        have := hp'.length_eq
        simp only [List.length_cons] at this
        omega) hq hz2
      refine ⟨x :: xs, fun rest => ?_⟩
      have he' : rs.isEmpty = false := by cases rs with | nil => cases hm | cons _ _ => rfl
      simp only [selectGo, he', Bool.false_eq_true, if_false, List.cons_append, draw, hx, hxs rest, List.map_cons]

/-! ## Shares -/

theorem range_between (a b : Nat) (hab : a ≤ b) : ∀ n, b ≤ n →
    ((List.range n).filter (fun p => decide (a ≤ p ∧ p < b))).length = b - a := by
  have key : ∀ n, ((List.range n).filter (fun p => decide (a ≤ p ∧ p < b))).length = min n b - min n a := by
    intro n
    induction n with
    | zero => simp
    | succ n ih =>
      rw [List.range_succ, List.filter_append, List.length_append, ih]
      by_cases h : a ≤ n ∧ n < b
      · simp [h]; omega
      · simp [h]; omega
  intro n hn
  rw [key]
  omega

/-! ## Groups -/

/-- All records with their priorities. -/
def flat (g : List (Nat × List SrvRec)) : List Srv :=
  g.flatMap (fun e => e.2.map (fun r => ⟨e.1, r.1, r.2.1, r.2.2⟩))

theorem addGroup_perm (p : Nat) (r : SrvRec) : ∀ g, (flat (addGroup p r g)).Perm (flat g ++ [⟨p, r.1, r.2.1, r.2.2⟩])
  | [] => by simp [addGroup, flat]
  | (q, rs) :: t => by
    simp only [addGroup]
    split
    · rename_i h
      subst h
      simp only [flat, List.flatMap_cons, List.map_append, List.map_cons, List.map_nil]
      simp only [List.append_assoc]
      exact List.Perm.append_left _ List.perm_append_comm
    · split
      · simp only [flat, List.flatMap_cons, List.map_cons, List.map_nil, List.cons_append, List.nil_append]
        exact (List.perm_append_comm (l₁ := [_])).trans (List.Perm.refl _)
      · have ih := addGroup_perm p r t
        simp only [flat, List.flatMap_cons] at ih ⊢
        rw [List.append_assoc]
        exact List.Perm.append_left _ ih

/-- The keys increase and no group is empty. -/
def Ordered (g : List (Nat × List SrvRec)) : Prop := g.Pairwise (fun a b => a.1 < b.1) ∧ ∀ e ∈ g, e.2 ≠ []

theorem addGroup_mem (p : Nat) (r : SrvRec) : ∀ g e, e ∈ addGroup p r g → e.1 = p ∨ e ∈ g
  | [], e, h => by simp [addGroup] at h; exact Or.inl (by rw [h])
  | (q, rs) :: t, e, h => by
    simp only [addGroup] at h
    split at h
    · rename_i hq
      rcases List.mem_cons.mp h with rfl | h
      · exact Or.inl hq.symm
      · exact Or.inr (List.mem_cons_of_mem _ h)
    · split at h
      · rcases List.mem_cons.mp h with rfl | h
        · exact Or.inl rfl
        · exact Or.inr h
      · rcases List.mem_cons.mp h with rfl | h
        · exact Or.inr List.mem_cons_self
        · rcases addGroup_mem p r t e h with h | h
          · exact Or.inl h
          · exact Or.inr (List.mem_cons_of_mem _ h)

theorem addGroup_ordered (p : Nat) (r : SrvRec) : ∀ g, Ordered g → Ordered (addGroup p r g)
  | [], _ => ⟨by simp [addGroup], by intro e he; simp [addGroup] at he; subst he; simp⟩
  | (q, rs) :: t, ⟨ho, hne⟩ => by
    obtain ⟨h1, h2⟩ := List.pairwise_cons.mp ho
    have iht := addGroup_ordered p r t ⟨h2, fun e he => hne e (List.mem_cons_of_mem _ he)⟩
    simp only [addGroup]
    split
    · refine ⟨List.pairwise_cons.mpr ⟨h1, h2⟩, ?_⟩
      intro e he
      rcases List.mem_cons.mp he with rfl | he
      · simp
      · exact hne e (List.mem_cons_of_mem _ he)
    · split
      · rename_i hlt
        refine ⟨List.pairwise_cons.mpr ⟨?_, ho⟩, ?_⟩
        · intro e he
          rcases List.mem_cons.mp he with rfl | he
          · exact hlt
          · exact Nat.lt_trans hlt (h1 e he)
        · intro e he
          rcases List.mem_cons.mp he with rfl | he
          · simp
          · exact hne e he
      · rename_i h3 h4
        refine ⟨List.pairwise_cons.mpr ⟨?_, iht.1⟩, ?_⟩
        · intro e he
          rcases addGroup_mem p r t e he with h | h
          · show q < e.1
            omega
          · exact h1 e h
        · intro e he
          rcases List.mem_cons.mp he with rfl | he
          · exact hne _ List.mem_cons_self
          · exact iht.2 e he

end Siphon.Dns
