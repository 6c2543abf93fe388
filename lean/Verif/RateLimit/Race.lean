import Mathlib.Algebra.Order.BigOperators.Group.Finset
import Mathlib.Data.Finset.Card
import Mathlib.Data.Fintype.Card
import Mathlib.Data.Finset.Union
import Mathlib.Data.Fintype.Basic
import Mathlib.Order.Interval.Finset.Nat

/-!
# The key limit under concurrency (C49)

`check_rate_limit` reads the concurrent map (`contains_key`, `len`, lib.rs 546-547) and then, in a
second access, inserts the key (`entry(..).or_insert_with(..)`, lib.rs 561-564).  Here `n` callers
interleave at that grain, together with removals (`cleanup_idle` 639-668, `reset` 684-686, `clear`
689-691).  Only the set of tracked keys is modelled.
-/

namespace Siphon.RateLimit.Race

variable {K : Type} [DecidableEq K]

/-- The tracked keys, and for every caller the key it has decided to insert. -/
structure Sys (K : Type) (n : Nat) where
  table : Finset K
  pend : Fin n → Option K

/-- One access to the map. -/
inductive Act (K : Type) (n : Nat)
  | look (i : Fin n) (k : K)
  | enter (i : Fin n)
  | drop (ks : Finset K)

/-- lib.rs 546-558 (`look`: refused, or goes on), 561-564 (`enter`), 651-661 / 685 / 690 (`drop`). -/
def Sys.step {n : Nat} (max : Nat) (s : Sys K n) : Act K n → Sys K n
  | .look i k =>
    match s.pend i with
    | some _ => s
    | none =>
      if k ∉ s.table ∧ s.table.card ≥ max then s
      else { s with pend := Function.update s.pend i (some k) }
  | .enter i =>
    match s.pend i with
    | none => s
    | some k => { table := insert k s.table, pend := Function.update s.pend i none }
  | .drop ks => { s with table := s.table \ ks }

def Sys.run {n : Nat} (max : Nat) (s : Sys K n) (as : List (Act K n)) : Sys K n :=
  as.foldl (Sys.step max) s

theorem run_append {n : Nat} (max : Nat) (s : Sys K n) (as bs : List (Act K n)) :
    s.run max (as ++ bs) = (s.run max as).run max bs := by
  simp [Sys.run, List.foldl_append]

def Sys.init (K : Type) (n : Nat) : Sys K n := ⟨∅, fun _ => none⟩

/-- Keys about to be inserted. -/
def Sys.pending {n : Nat} (s : Sys K n) : Finset K :=
  Finset.univ.biUnion fun i => (s.pend i).toFinset

theorem mem_pending {n : Nat} (s : Sys K n) (k : K) : k ∈ s.pending ↔ ∃ i, s.pend i = some k := by
  simp [Sys.pending]

theorem pending_card {n : Nat} (s : Sys K n) : s.pending.card ≤ n := by
  refine le_trans Finset.card_biUnion_le ?_
  refine le_trans (Finset.sum_le_sum (g := fun _ => 1) fun i _ => ?_) (by simp)
  cases s.pend i <;> simp

theorem step_union {n : Nat} (max : Nat) (hm : 1 ≤ max) (s : Sys K n) (a : Act K n)
    (h : (s.table ∪ s.pending).card ≤ max - 1 + n) :
    ((s.step max a).table ∪ (s.step max a).pending).card ≤ max - 1 + n := by
  cases a with
  | look i k =>
    simp only [Sys.step]
    cases hp : s.pend i with
    | some _ => exact h
    | none =>
      simp only []
      split
      · exact h
      · rename_i hc
        by_cases hk : k ∈ s.table
        · refine le_trans (Finset.card_le_card ?_) h
          intro x hx
          simp only [Finset.mem_union, mem_pending] at hx ⊢
          rcases hx with hx | ⟨j, hj⟩
          · exact Or.inl hx
          · by_cases hij : j = i
            · subst hij
              simp only [Function.update_self, Option.some.injEq] at hj
              exact Or.inl (hj ▸ hk)
            · rw [Function.update_of_ne hij] at hj
              exact Or.inr ⟨j, hj⟩
        · have hlt : s.table.card < max := by
            by_contra hge
            exact hc ⟨hk, by omega⟩
          refine le_trans (Finset.card_union_le _ _) ?_
          have := pending_card { s with pend := Function.update s.pend i (some k) }
          simp only [] at this ⊢
          omega
  | enter i =>
    simp only [Sys.step]
    cases hp : s.pend i with
    | none => exact h
    | some k =>
      refine le_trans (Finset.card_le_card ?_) h
      intro x hx
      simp only [Finset.mem_union, mem_pending, Finset.mem_insert] at hx ⊢
      rcases hx with (rfl | hx) | ⟨j, hj⟩
      · exact Or.inr ⟨i, hp⟩
      · exact Or.inl hx
      · by_cases hij : j = i
        · subst hij; simp at hj
        · rw [Function.update_of_ne hij] at hj
          exact Or.inr ⟨j, hj⟩
  | drop ks =>
    refine le_trans (Finset.card_le_card ?_) h
    exact Finset.union_subset_union Finset.sdiff_subset (Finset.Subset.refl _)

/-- **C49 under concurrency.**  With `n` callers in flight at a time, the table holds at most
`max + n - 1` keys, whatever the schedule. -/
theorem C49_concurrent (max n : Nat) (hm : 1 ≤ max) (as : List (Act K n)) :
    ((Sys.init K n).run max as).table.card ≤ max - 1 + n := by
  have inv : ∀ (as : List (Act K n)) (s : Sys K n), (s.table ∪ s.pending).card ≤ max - 1 + n →
      ((s.run max as).table ∪ (s.run max as).pending).card ≤ max - 1 + n := by
    intro as
    induction as with
    | nil => intro s h; exact h
    | cons a as ih => intro s h; exact ih _ (step_union max hm s a h)
  refine le_trans (Finset.card_le_card Finset.subset_union_left) (inv as (Sys.init K n) ?_)
  have : (Sys.init K n).pending = ∅ := by
    ext k; simp [mem_pending, Sys.init]
  rw [this]
  simp [Sys.init]

/-- With a single caller the limit itself holds. -/
theorem C49_one_caller (max : Nat) (hm : 1 ≤ max) (as : List (Act K 1)) :
    ((Sys.init K 1).run max as).table.card ≤ max := by
  have := C49_concurrent max 1 hm as
  omega

/-- **Finding (C49).**  The bound is reached: all callers look before any of them inserts. -/
theorem C49_limit_exceeded (max n : Nat) (hm : 1 ≤ max) :
    ∃ as : List (Act Nat n), ((Sys.init Nat n).run max as).table.card = max - 1 + n ∨ n = 0 := by
  rcases Nat.eq_zero_or_pos n with rfl | hn
  · exact ⟨[], Or.inr rfl⟩
  -- the first caller fills the table up to one below the limit
  let i0 : Fin n := ⟨0, hn⟩
  have fill : ∀ m, m ≤ max - 1 → ∃ as : List (Act Nat n),
      (Sys.init Nat n).run max as = ⟨Finset.range m, fun _ => none⟩ := by
    intro m
    induction m with
    | zero => intro _; exact ⟨[], rfl⟩
    | succ m ih =>
      intro h
      obtain ⟨as, e⟩ := ih (by omega)
      refine ⟨as ++ [.look i0 m, .enter i0], ?_⟩
      rw [run_append, e]
      have hc : ¬ (m ∉ Finset.range m ∧ (Finset.range m).card ≥ max) := by
        rw [Finset.card_range]; omega
      simp only [Sys.run, List.foldl_cons, List.foldl_nil, Sys.step, if_neg hc, Function.update_self,
        Function.update_idem, Finset.range_add_one]
      congr 1
      funext j
      simp only [Function.update_apply]
      split <;> rfl
  obtain ⟨as, e⟩ := fill (max - 1) (Nat.le_refl _)
  -- then every caller looks
  have looks : ∀ m (_ : m ≤ n), ∃ bs : List (Act Nat n),
      (Sys.run max ⟨Finset.range (max - 1), fun _ => none⟩ bs) =
        ⟨Finset.range (max - 1), fun i => if i.val < m then some (max - 1 + i.val) else none⟩ := by
    intro m
    induction m with
    | zero => intro _; exact ⟨[], by simp [Sys.run]⟩
    | succ m ih =>
      intro h
      obtain ⟨bs, e⟩ := ih (by omega)
      refine ⟨bs ++ [.look ⟨m, by omega⟩ (max - 1 + m)], ?_⟩
      rw [run_append, e]
      have hc : ¬ (max - 1 + m ∉ Finset.range (max - 1) ∧ (Finset.range (max - 1)).card ≥ max) := by
        rw [Finset.card_range]; omega
      simp only [Sys.run, List.foldl_cons, List.foldl_nil, Sys.step, Nat.lt_irrefl, if_false, if_neg hc]
      congr 1
      funext j
      simp only [Function.update_apply, Fin.ext_iff]
      by_cases hj : j.val = m
      · simp [hj]
      · simp only [hj, if_false]
        by_cases hlt : j.val < m
        · simp [hlt, show j.val < m + 1 by omega]
        · simp [hlt, show ¬ j.val < m + 1 by omega]
  obtain ⟨bs, e2⟩ := looks n (Nat.le_refl _)
  -- and then every caller inserts
  have enters : ∀ m (_ : m ≤ n), ∃ cs : List (Act Nat n),
      (Sys.run max ⟨Finset.range (max - 1), fun i => if i.val < n then some (max - 1 + i.val) else none⟩ cs) =
        ⟨Finset.range (max - 1 + m), fun i => if i.val < m then none else some (max - 1 + i.val)⟩ := by
    intro m
    induction m with
    | zero => intro _; exact ⟨[], by simp [Sys.run]⟩
    | succ m ih =>
      intro h
      obtain ⟨cs, e⟩ := ih (by omega)
      refine ⟨cs ++ [.enter ⟨m, by omega⟩], ?_⟩
      rw [run_append, e]
      simp only [Sys.run, List.foldl_cons, List.foldl_nil, Sys.step, Nat.lt_irrefl, if_false]
      rw [← Nat.add_assoc, Finset.range_add_one]
      congr 1
      funext j
      simp only [Function.update_apply, Fin.ext_iff]
      by_cases hj : j.val = m
      · simp [hj]
      · simp only [hj, if_false]
        by_cases hlt : j.val < m
        · simp [hlt, show j.val < m + 1 by omega]
        · simp [hlt, show ¬ j.val < m + 1 by omega]
  obtain ⟨cs, e3⟩ := enters n (Nat.le_refl _)
  refine ⟨as ++ bs ++ cs, Or.inl ?_⟩
  have : (Sys.init Nat n).run max (as ++ bs ++ cs)
      = ⟨Finset.range (max - 1 + n), fun i => if i.val < n then none else some (max - 1 + i.val)⟩ := by
    rw [run_append, run_append, e, e2, e3]
  rw [this, Finset.card_range]

end Siphon.RateLimit.Race
