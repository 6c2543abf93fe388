/-!
# Finite maps

`HashMap`/`DashMap` are modelled as association lists.  Only `get`, `insert`, `remove`,
in-place update, `len` and iteration are used by the crates; iteration order of the Rust maps
is unspecified, here it is list order.
-/

namespace Siphon

abbrev Tbl (K V : Type) := List (K × V)

namespace Tbl
variable {K V : Type} [DecidableEq K]

def get (t : Tbl K V) (k : K) : Option V :=
  match t with
  | [] => none
  | (k', v) :: t => if k' = k then some v else get t k

def remove (t : Tbl K V) (k : K) : Tbl K V := t.filter (fun p => decide (p.1 ≠ k))

def insert (t : Tbl K V) (k : K) (v : V) : Tbl K V := (k, v) :: remove t k

/-- in-place modification through `get_mut` -/
def update (t : Tbl K V) (k : K) (f : V → V) : Tbl K V :=
  t.map (fun p => if p.1 = k then (p.1, f p.2) else p)

def keys (t : Tbl K V) : List K := t.map (·.1)

def contains (t : Tbl K V) (k : K) : Bool := (get t k).isSome

/-! ## Lemmas -/

@[simp] theorem get_nil (k : K) : get ([] : Tbl K V) k = none := rfl

theorem get_cons (k' : K) (v : V) (t : Tbl K V) (k : K) :
    get ((k', v) :: t) k = if k' = k then some v else get t k := rfl

theorem get_remove_self (t : Tbl K V) (k : K) : get (remove t k) k = none := by
  induction t with
  | nil => rfl
  | cons p t ih =>
    obtain ⟨k', v⟩ := p
    by_cases h : k' = k
    · simpa [remove, h] using ih
    · simp only [remove, List.filter_cons, h, ne_eq, not_false_eq_true, decide_true, if_true,
        get_cons, if_false]
      exact ih

theorem get_remove_ne (t : Tbl K V) {k k' : K} (h : k' ≠ k) : get (remove t k) k' = get t k' := by
  induction t with
  | nil => rfl
  | cons p t ih =>
    obtain ⟨k'', v⟩ := p
    by_cases h2 : k'' = k
    · subst h2
      simp only [remove, List.filter_cons, ne_eq, not_true_eq_false, decide_false, get_cons,
        if_neg (Ne.symm h)]
      simpa [remove] using ih
    · simp only [remove, List.filter_cons, h2, ne_eq, not_false_eq_true, decide_true, if_true,
        get_cons]
      split
      · rfl
      · simpa [remove] using ih

@[simp] theorem get_insert_self (t : Tbl K V) (k : K) (v : V) : get (insert t k v) k = some v := by
  simp [insert, get_cons]

theorem get_insert_ne (t : Tbl K V) {k k' : K} (v : V) (h : k' ≠ k) :
    get (insert t k v) k' = get t k' := by
  simp [insert, get_cons, Ne.symm h, get_remove_ne t h]

theorem get_update_self (t : Tbl K V) (k : K) (f : V → V) :
    get (update t k f) k = (get t k).map f := by
  induction t with
  | nil => rfl
  | cons p t ih =>
    obtain ⟨k', v⟩ := p
    by_cases h : k' = k
    · simp [update, get_cons, h]
    · simp only [update, List.map_cons, h, if_false, get_cons]
      exact ih

theorem get_update_ne (t : Tbl K V) {k k' : K} (f : V → V) (h : k' ≠ k) :
    get (update t k f) k' = get t k' := by
  induction t with
  | nil => rfl
  | cons p t ih =>
    obtain ⟨k'', v⟩ := p
    simp only [update, List.map_cons, get_cons]
    by_cases h2 : k'' = k
    · subst h2
      simp only [if_true, get_cons, if_neg (Ne.symm h)]
      exact ih
    · simp only [h2, if_false, get_cons]
      split
      · rfl
      · exact ih

@[simp] theorem length_update (t : Tbl K V) (k : K) (f : V → V) :
    (update t k f).length = t.length := by simp [update]

@[simp] theorem keys_update (t : Tbl K V) (k : K) (f : V → V) :
    keys (update t k f) = keys t := by
  simp only [keys, update, List.map_map]
  apply List.map_congr_left
  intro p _
  simp only [Function.comp]
  split <;> rfl

theorem length_remove_le (t : Tbl K V) (k : K) : (remove t k).length ≤ t.length :=
  List.length_filter_le _ _

theorem keys_remove (t : Tbl K V) (k : K) : keys (remove t k) = (keys t).filter (fun x => decide (x ≠ k)) := by
  simp only [keys, remove, List.filter_map]
  rfl

theorem nodup_remove (t : Tbl K V) (k : K) (h : (keys t).Nodup) : (keys (remove t k)).Nodup := by
  rw [keys_remove]; exact h.filter _

theorem not_mem_keys_remove (t : Tbl K V) (k : K) : k ∉ keys (remove t k) := by
  rw [keys_remove]; simp

theorem nodup_insert (t : Tbl K V) (k : K) (v : V) (h : (keys t).Nodup) :
    (keys (insert t k v)).Nodup := by
  simp only [insert, keys, List.map_cons, List.nodup_cons]
  exact ⟨not_mem_keys_remove t k, nodup_remove t k h⟩

theorem length_insert_le (t : Tbl K V) (k : K) (v : V) : (insert t k v).length ≤ t.length + 1 := by
  simp only [insert, List.length_cons]
  have := length_remove_le t k
  omega

theorem get_isSome_iff (t : Tbl K V) (k : K) : (get t k).isSome = true ↔ k ∈ keys t := by
  induction t with
  | nil => simp [keys]
  | cons p t ih =>
    obtain ⟨k', v⟩ := p
    rw [get_cons]
    by_cases h : k' = k
    · simp [h, keys]
    · rw [if_neg h, ih]
      simp [keys, Ne.symm h]

theorem get_eq_none_iff (t : Tbl K V) (k : K) : get t k = none ↔ k ∉ keys t := by
  rw [← get_isSome_iff]
  cases get t k <;> simp

theorem mem_of_get (t : Tbl K V) (k : K) (v : V) (h : get t k = some v) : (k, v) ∈ t := by
  induction t with
  | nil => simp at h
  | cons p t ih =>
    obtain ⟨k', v'⟩ := p
    rw [get_cons] at h
    by_cases hk : k' = k
    · rw [if_pos hk] at h; cases h; simp [hk]
    · rw [if_neg hk] at h; exact List.mem_cons_of_mem _ (ih h)

theorem get_of_mem (t : Tbl K V) (k : K) (v : V) (hn : (keys t).Nodup) (h : (k, v) ∈ t) :
    get t k = some v := by
  induction t with
  | nil => simp at h
  | cons p t ih =>
    obtain ⟨k', v'⟩ := p
    simp only [keys, List.map_cons, List.nodup_cons] at hn
    rw [get_cons]
    rcases List.mem_cons.mp h with h | h
    · cases h; simp
    · have : k' ≠ k := by
        rintro rfl
        exact hn.1 (List.mem_map_of_mem (f := (·.1)) h)
      rw [if_neg this]
      exact ih hn.2 h

theorem remove_of_not_mem (t : Tbl K V) (k : K) (h : k ∉ keys t) : remove t k = t := by
  unfold remove
  rw [List.filter_eq_self]
  intro p hp
  simp only [ne_eq, decide_eq_true_eq]
  rintro rfl
  exact h (List.mem_map_of_mem (f := (·.1)) hp)

theorem length_remove_lt (t : Tbl K V) (k : K) (h : k ∈ keys t) :
    (remove t k).length < t.length := by
  induction t with
  | nil => simp [keys] at h
  | cons p t ih =>
    obtain ⟨k', v⟩ := p
    by_cases hk : k' = k
    · subst hk
      have := length_remove_le t k'
      have e : remove ((k', v) :: t) k' = remove t k' := by simp [remove]
      rw [e, List.length_cons]
      omega
    · have : k ∈ keys t := by
        simp only [keys, List.map_cons, List.mem_cons] at h
        rcases h with h | h
        · exact absurd h.symm hk
        · exact h
      have := ih this
      simp only [remove, List.filter_cons, hk, ne_eq, not_false_eq_true, decide_true, if_true,
        List.length_cons] at this ⊢
      omega

theorem length_remove_mem (t : Tbl K V) (k : K) (hn : (keys t).Nodup) (h : k ∈ keys t) :
    (remove t k).length + 1 = t.length := by
  induction t with
  | nil => simp [keys] at h
  | cons p t ih =>
    obtain ⟨k', v⟩ := p
    simp only [keys, List.map_cons, List.nodup_cons] at hn
    by_cases hk : k' = k
    · subst hk
      have : remove t k' = t := remove_of_not_mem t k' hn.1
      have e : remove ((k', v) :: t) k' = remove t k' := by simp [remove]
      rw [e, this, List.length_cons]
    · have hm : k ∈ keys t := by
        simp only [keys, List.map_cons, List.mem_cons] at h
        rcases h with h | h
        · exact absurd h.symm hk
        · exact h
      have := ih hn.2 hm
      simp only [remove, List.filter_cons, hk, ne_eq, not_false_eq_true, decide_true, if_true,
        List.length_cons] at this ⊢
      omega

end Tbl
end Siphon
