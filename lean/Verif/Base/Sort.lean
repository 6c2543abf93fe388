/-!
# Stable sorting by a numeric key

`slice::sort_by_key` is a stable sort.  Its result is determined by that: the order of equal keys is
kept.  Insertion sort computes it in a form the kernel can evaluate.
-/
namespace Siphon

/-- Insert `x`, to stand before the equal and larger elements. -/
def insertBy {α : Type} (key : α → Nat) (x : α) : List α → List α
  | [] => [x]
  | y :: ys => if key x ≤ key y then x :: y :: ys else y :: insertBy key x ys

/-- Stable ascending sort. -/
def sortBy {α : Type} (key : α → Nat) : List α → List α
  | [] => []
  | x :: xs => insertBy key x (sortBy key xs)

theorem insertBy_perm {α : Type} (key : α → Nat) (x : α) : ∀ l, (insertBy key x l).Perm (x :: l)
  | [] => .refl _
  | y :: ys => by
    unfold insertBy
    split
    · exact .refl _
    · exact ((insertBy_perm key x ys).cons y).trans (.swap x y ys)

theorem sortBy_perm {α : Type} (key : α → Nat) : ∀ l, (sortBy key l).Perm l
  | [] => .refl _
  | x :: xs => (insertBy_perm key x _).trans ((sortBy_perm key xs).cons x)

theorem insertBy_sorted {α : Type} (key : α → Nat) (x : α) : ∀ l : List α,
    l.Pairwise (fun a b => key a ≤ key b) → (insertBy key x l).Pairwise (fun a b => key a ≤ key b)
  | [], _ => by simp [insertBy]
  | y :: ys, h => by
    rw [List.pairwise_cons] at h
    unfold insertBy
    split
    · rename_i hle
      rw [List.pairwise_cons, List.pairwise_cons]
      refine ⟨?_, h⟩
      intro a ha
      rcases List.mem_cons.mp ha with rfl | ha
      · exact hle
      · exact Nat.le_trans hle (h.1 a ha)
    · rename_i hle
      rw [List.pairwise_cons]
      refine ⟨?_, insertBy_sorted key x ys h.2⟩
      intro a ha
      rcases List.mem_cons.mp ((insertBy_perm key x ys).mem_iff.mp ha) with rfl | ha
      · omega
      · exact h.1 a ha

theorem sortBy_sorted {α : Type} (key : α → Nat) : ∀ l : List α,
    (sortBy key l).Pairwise (fun a b => key a ≤ key b)
  | [] => by simp [sortBy]
  | x :: xs => insertBy_sorted key x _ (sortBy_sorted key xs)

/-- Stability: for each key the elements keep their order. -/
theorem insertBy_filter {α : Type} (key : α → Nat) (k : Nat) (x : α) : ∀ l : List α,
    (insertBy key x l).filter (fun a => key a == k) = (x :: l).filter (fun a => key a == k)
  | [] => rfl
  | y :: ys => by
    unfold insertBy
    split
    · rfl
    · rename_i hle
      rw [List.filter_cons, insertBy_filter key k x ys]
      simp only [List.filter_cons]
      by_cases hx : (key x == k) = true <;> by_cases hy : (key y == k) = true
      · simp only [beq_iff_eq] at hx hy; omega
      · simp [hx, hy]
      · simp [hx, hy]
      · simp [hx, hy]

theorem sortBy_filter {α : Type} (key : α → Nat) (k : Nat) : ∀ l : List α,
    (sortBy key l).filter (fun a => key a == k) = l.filter (fun a => key a == k)
  | [] => rfl
  | x :: xs => by
    unfold sortBy
    rw [insertBy_filter, List.filter_cons, List.filter_cons, sortBy_filter key k xs]

theorem length_sortBy {α : Type} (key : α → Nat) (l : List α) : (sortBy key l).length = l.length :=
  (sortBy_perm key l).length_eq

end Siphon
