import Verif.Registrar.Spec
import Verif.RateLimit.Lemmas
set_option linter.unusedSimpArgs false
namespace Siphon.Registrar
open Spec

theorem at_insert_self (s : Store) (k : Str) (l : List Stored) : Store.at (Tbl.insert s k l) k = l := by
  unfold Store.at; rw [Tbl.get_insert_self]

theorem at_insert_ne (s : Store) {k k' : Str} (l : List Stored) (h : k' ≠ k) :
    Store.at (Tbl.insert s k l) k' = s.at k' := by
  unfold Store.at; rw [Tbl.get_insert_ne s l h]

theorem at_update_self (s : Store) (k : Str) (f : List Stored → List Stored) (hf : f [] = []) :
    Store.at (Tbl.update s k f) k = f (s.at k) := by
  unfold Store.at; rw [Tbl.get_update_self]
  cases Tbl.get s k <;> simp [hf]

theorem at_update_ne (s : Store) {k k' : Str} (f : List Stored → List Stored) (h : k' ≠ k) :
    Store.at (Tbl.update s k f) k' = s.at k' := by
  unfold Store.at; rw [Tbl.get_update_ne s f h]

theorem at_remove_self (s : Store) (k : Str) : Store.at (Tbl.remove s k) k = [] := by
  unfold Store.at; rw [Tbl.get_remove_self]

theorem at_remove_ne (s : Store) {k k' : Str} (h : k' ≠ k) : Store.at (Tbl.remove s k) k' = s.at k' := by
  unfold Store.at; rw [Tbl.get_remove_ne s h]

theorem at_removeContact (s : Store) (a c k : Str) :
    (s.removeContact a c).at k = if k = a then (s.at k).filter (fun x => x.contact != c) else s.at k := by
  unfold Store.removeContact
  split
  · rename_i h; subst h; rw [at_update_self]; rfl
  · rename_i h; rw [at_update_ne _ _ h]

theorem at_removeAll (s : Store) (a k : Str) : (s.removeAll a).at k = if k = a then [] else s.at k := by
  unfold Store.removeAll
  split
  · rename_i h; subst h; rw [at_remove_self]
  · rename_i h; rw [at_remove_ne _ h]

theorem at_purge (s : Store) (a k : Str) (t : Nat) :
    (s.purge a t).at k = if k = a then (s.at k).filter (fun x => x.expiresAt > t) else s.at k := by
  unfold Store.purge
  split
  · rename_i h; subst h; rw [at_update_self]; rfl
  · rename_i h; rw [at_update_ne _ _ h]

theorem get_map_snd (f : List Stored → List Stored) : ∀ (s : Store) (k : Str),
    Tbl.get (s.map (fun e => (e.1, f e.2))) k = (Tbl.get s k).map f
  | [], _ => rfl
  | (k', l) :: s, k => by
    rw [List.map_cons, Tbl.get_cons, Tbl.get_cons]
    split
    · rfl
    · exact get_map_snd f s k

theorem keys_map_snd (f : List Stored → List Stored) (s : Store) :
    Tbl.keys (s.map (fun e => (e.1, f e.2))) = Tbl.keys s := by
  unfold Tbl.keys; rw [List.map_map]; rfl

theorem at_cleanup (s : Store) (t : Nat) (k : Str) (hn : (Tbl.keys s).Nodup) :
    (s.cleanup t).2.at k = (s.at k).filter (fun x => x.expiresAt > t) := by
  unfold Store.cleanup Store.at
  rw [RateLimit.Tbl.get_filter _ _ _ (by rw [keys_map_snd]; exact hn), get_map_snd]
  cases Tbl.get s k with
  | none => rfl
  | some l =>
    simp only [Option.map_some, Option.filter]
    by_cases hl : l.filter (fun x => decide (x.expiresAt > t)) = []
    · rw [hl]; rfl
    · rw [if_pos (by simpa [List.isEmpty_iff] using hl)]

theorem at_upsert (s : Store) (b : Binding) (t : Nat) (k : Str) :
    (s.upsert b t).2.at k =
      if (s.upsert b t).1.isOk = true ∧ k = b.aor then
        (s.at k).filter (fun x => x.contact != b.contact) ++ [b.stored t]
      else s.at k := by
  unfold Store.upsert
  split
  · simp [Except.isOk, Except.toBool]
  · split
    · simp [Except.isOk, Except.toBool]
    · by_cases h : k = b.aor
      · subst h; simp [Except.isOk, Except.toBool, at_insert_self]
      · simp [h, at_insert_ne]

/-! ## The invariant -/

/-- What every reachable store satisfies. -/
structure Good (s : Store) : Prop where
  keys : (Tbl.keys s).Nodup
  contacts : ∀ k, ((s.at k).map (·.contact)).Nodup
  few : ∀ k, (s.at k).length ≤ MAX_BINDINGS_PER_AOR

theorem good_init : Good [] := ⟨by simp [Tbl.keys], by simp [Store.at], by simp [Store.at]⟩

theorem good_step (s : Store) (op : StoreOp) (h : Good s) : Good (s.step op) := by
  have filt : ∀ (l : List Stored) (p : Stored → Bool), (l.map (·.contact)).Nodup →
      ((l.filter p).map (·.contact)).Nodup := fun l p hl =>
    (List.Sublist.map _ (List.filter_sublist)).nodup hl
  cases op with
  | upsert b t =>
    have hk : ((s.upsert b t).2.keys).Nodup := by
      unfold Store.upsert
      split
      · exact h.keys
      · split
        · exact h.keys
        · exact Tbl.nodup_insert _ _ _ h.keys
    refine ⟨hk, fun k => ?_, fun k => ?_⟩
    · show (((s.upsert b t).2.at k).map (·.contact)).Nodup
      rw [at_upsert]
      split
      · rw [List.map_append, List.nodup_append]
        refine ⟨filt _ _ (h.contacts k), by simp, ?_⟩
        intro a ha c hc
        simp only [List.map_cons, List.map_nil, List.mem_singleton] at hc
        subst hc
        obtain ⟨x, hx, rfl⟩ := List.mem_map.mp ha
        have := (List.mem_filter.mp hx).2
        simpa [Binding.stored] using this
      · exact h.contacts k
    · show ((s.upsert b t).2.at k).length ≤ _
      rw [at_upsert]
      split
      · rename_i hc
        obtain ⟨hok, rfl⟩ := hc
        rw [List.length_append, List.length_singleton]
        unfold Store.upsert at hok
        split at hok
        · simp [Except.isOk, Except.toBool] at hok
        · split at hok
          · simp [Except.isOk, Except.toBool] at hok
          · omega
      · exact h.few k
  | remove a c t =>
    refine ⟨by show (Tbl.keys (s.removeContact a c)).Nodup; unfold Store.removeContact; rw [Tbl.keys_update]; exact h.keys, fun k => ?_, fun k => ?_⟩
    · show (((s.removeContact a c).at k).map (·.contact)).Nodup
      rw [at_removeContact]; split
      · exact filt _ _ (h.contacts k)
      · exact h.contacts k
    · show ((s.removeContact a c).at k).length ≤ _
      rw [at_removeContact]; split
      · exact Nat.le_trans (List.length_filter_le _ _) (h.few k)
      · exact h.few k
  | removeAll a t =>
    refine ⟨Tbl.nodup_remove _ _ h.keys, fun k => ?_, fun k => ?_⟩
    · show (((s.removeAll a).at k).map (·.contact)).Nodup
      rw [at_removeAll]; split
      · simp
      · exact h.contacts k
    · show ((s.removeAll a).at k).length ≤ _
      rw [at_removeAll]; split
      · simp
      · exact h.few k
  | lookup a t₁ t₂ =>
    refine ⟨by show (Tbl.keys (s.purge a t₁)).Nodup; unfold Store.purge; rw [Tbl.keys_update]; exact h.keys, fun k => ?_, fun k => ?_⟩
    · show (((s.purge a t₁).at k).map (·.contact)).Nodup
      rw [at_purge]; split
      · exact filt _ _ (h.contacts k)
      · exact h.contacts k
    · show ((s.purge a t₁).at k).length ≤ _
      rw [at_purge]; split
      · exact Nat.le_trans (List.length_filter_le _ _) (h.few k)
      · exact h.few k
  | cleanup t =>
    refine ⟨?_, fun k => ?_, fun k => ?_⟩
    · show (Tbl.keys (s.cleanup t).2).Nodup
      unfold Store.cleanup
      refine (RateLimit.keys_filter_sublist _ _).nodup ?_
      rw [keys_map_snd]; exact h.keys
    · show (((s.cleanup t).2.at k).map (·.contact)).Nodup
      rw [at_cleanup _ _ _ h.keys]; exact filt _ _ (h.contacts k)
    · show ((s.cleanup t).2.at k).length ≤ _
      rw [at_cleanup _ _ _ h.keys]; exact Nat.le_trans (List.length_filter_le _ _) (h.few k)

theorem good_run : ∀ (ops : List StoreOp) (s : Store), Good s → Good (s.run ops)
  | [], _, h => h
  | op :: ops, s, h => good_run ops (s.step op) (good_step s op h)

/-! ## Counting -/

theorem total_cons (e : Str × List Stored) (s : Store) : Store.total (e :: s) = e.2.length + Store.total s := by
  simp [Store.total]

theorem total_filter_le (p : Str × List Stored → Bool) : ∀ s : Store, Store.total (s.filter p) ≤ s.total
  | [] => Nat.le_refl _
  | e :: s => by
    have := total_filter_le p s
    rw [List.filter_cons]
    split
    · rw [total_cons, total_cons]; omega
    · rw [total_cons]; omega

theorem total_map_le (f : Str × List Stored → List Stored) (hf : ∀ e, (f e).length ≤ e.2.length) :
    ∀ s : Store, Store.total (s.map (fun e => (e.1, f e))) ≤ s.total
  | [] => Nat.le_refl _
  | e :: s => by
    have := total_map_le f hf s
    have := hf e
    rw [List.map_cons, total_cons, total_cons]
    simp only
    omega

theorem total_update_le (s : Store) (k : Str) (f : List Stored → List Stored) (hf : ∀ l, (f l).length ≤ l.length) :
    Store.total (Tbl.update s k f) ≤ s.total := by
  have e : Tbl.update s k f = s.map (fun e => (e.1, if e.1 = k then f e.2 else e.2)) := by
    unfold Tbl.update
    apply List.map_congr_left
    intro e _
    split <;> simp_all
  rw [e]
  refine total_map_le _ (fun e => ?_) s
  split
  · exact hf _
  · exact Nat.le_refl _

theorem total_remove : ∀ (s : Store) (k : Str), (Tbl.keys s).Nodup →
    Store.total (Tbl.remove s k) + (s.at k).length = s.total
  | [], _, _ => rfl
  | (k', l) :: s, k, hn => by
    simp only [Tbl.keys, List.map_cons, List.nodup_cons] at hn
    by_cases h : k' = k
    · subst h
      have hr : Tbl.remove ((k', l) :: s) k' = s := by
        have : Tbl.remove s k' = s := Tbl.remove_of_not_mem s k' hn.1
        simp only [Tbl.remove, List.filter_cons, ne_eq, not_true_eq_false, decide_false] at this ⊢
        simpa using this
      rw [hr, total_cons]
      simp only [Store.at, Tbl.get_cons, if_true]
      omega
    · have ih := total_remove s k hn.2
      have hr : Tbl.remove ((k', l) :: s) k = (k', l) :: Tbl.remove s k := by
        simp [Tbl.remove, h]
      have ha : Store.at ((k', l) :: s) k = Store.at s k := by
        unfold Store.at; rw [Tbl.get_cons, if_neg h]
      rw [hr, ha, total_cons, total_cons]
      omega

theorem total_insert (s : Store) (k : Str) (l : List Stored) (hn : (Tbl.keys s).Nodup) :
    Store.total (Tbl.insert s k l) + (s.at k).length = s.total + l.length := by
  have := total_remove s k hn
  show Store.total ((k, l) :: Tbl.remove s k) + _ = _
  rw [total_cons]
  simp only
  omega

theorem total_step (s : Store) (op : StoreOp) (hn : (Tbl.keys s).Nodup) (h : s.total ≤ MAX_TOTAL_BINDINGS) :
    (s.step op).total ≤ MAX_TOTAL_BINDINGS := by
  cases op with
  | upsert b t =>
    show (s.upsert b t).2.total ≤ _
    unfold Store.upsert
    split
    · exact h
    · split
      · exact h
      · have := total_insert s b.aor ((s.at b.aor).filter (fun x => x.contact != b.contact) ++ [b.stored t]) hn
        have hl := List.length_filter_le (fun x : Stored => x.contact != b.contact) (s.at b.aor)
        rw [List.length_append, List.length_singleton] at this
        simp only
        omega
  | remove a c t =>
    exact Nat.le_trans (total_update_le _ _ _ (fun l => List.length_filter_le _ _)) h
  | removeAll a t => exact Nat.le_trans (total_filter_le _ _) h
  | lookup a t₁ t₂ =>
    exact Nat.le_trans (total_update_le _ _ _ (fun l => List.length_filter_le _ _)) h
  | cleanup t =>
    exact Nat.le_trans (total_filter_le _ _)
      (Nat.le_trans (total_map_le (fun e => e.2.filter (fun x => x.expiresAt > t)) (fun e => List.length_filter_le _ _) s) h)

/-! ## The latest registration -/

theorem latest_eq (aor c : Str) (h : List (StoreOp × Bool)) : latest aor c h = latest.go aor c h none := by
  cases h <;> rfl

/-- The store holds, as far as anyone can see from `T` on, exactly the given registrations. -/
def Holds (T : Nat) (s : Store) (f : Str → Str → Option (Binding × Nat)) : Prop :=
  ∀ aor t y, T ≤ t → ((y ∈ s.at aor ∧ t < y.expiresAt) ↔
    ∃ b t0, f aor y.contact = some (b, t0) ∧ b.aor = aor ∧ y = b.stored t0 ∧ t < t0 + b.expires)

theorem holds_mono {T T' : Nat} {s : Store} {f} (h : Holds T s f) (hT : T ≤ T') : Holds T' s f :=
  fun aor t y ht => h aor t y (Nat.le_trans hT ht)

theorem holds_step (T : Nat) (s : Store) (f : Str → Str → Option (Binding × Nat)) (op : StoreOp)
    (hg : Good s) (h : Holds T s f) (h1 : T ≤ start op) (h2 : start op ≤ finish op) :
    Holds (finish op) (s.step op) (fun aor c => after aor c op (succeeds s op) (f aor c)) := by
  intro aor t y ht
  have hT : T ≤ t := by omega
  have key := h aor t y hT
  cases op with
  | upsert b now =>
    show (y ∈ (s.upsert b now).2.at aor ∧ _) ↔ _
    have hsucc : succeeds s (.upsert b now) = (s.upsert b now).1.isOk := rfl
    rw [at_upsert, hsucc]
    simp only [after]
    by_cases hc : (s.upsert b now).1.isOk = true ∧ aor = b.aor
    · obtain ⟨hok, rfl⟩ := hc
      rw [if_pos ⟨hok, rfl⟩]
      by_cases hy : y.contact = b.contact
      · rw [if_pos (show (s.upsert b now).1.isOk = true ∧ b.aor = b.aor ∧ b.contact = y.contact from ⟨hok, rfl, hy.symm⟩)]
        constructor
        · rintro ⟨hm, hlt⟩
          rcases List.mem_append.mp hm with hm | hm
          · have := (List.mem_filter.mp hm).2
            simp [hy] at this
          · have hys := List.mem_singleton.mp hm
            refine ⟨b, now, rfl, rfl, hys, ?_⟩
            rw [hys] at hlt
            simpa [Binding.stored] using hlt
        · rintro ⟨b', t0, he, _, hs, hlt⟩
          simp only [Option.some.injEq, Prod.mk.injEq] at he
          obtain ⟨rfl, rfl⟩ := he
          refine ⟨List.mem_append_right _ (List.mem_singleton.mpr hs), ?_⟩
          rw [hs]; simpa [Binding.stored] using hlt
      · rw [if_neg (show ¬((s.upsert b now).1.isOk = true ∧ b.aor = b.aor ∧ b.contact = y.contact) from fun hh => hy hh.2.2.symm), ← key]
        constructor
        · rintro ⟨hm, hlt⟩
          refine ⟨?_, hlt⟩
          rcases List.mem_append.mp hm with hm | hm
          · exact (List.mem_filter.mp hm).1
          · have hys := List.mem_singleton.mp hm
            exact absurd (by rw [hys]; rfl) hy
        · rintro ⟨hm, hlt⟩
          exact ⟨List.mem_append_left _ (List.mem_filter.mpr ⟨hm, by simp [hy]⟩), hlt⟩
    · rw [if_neg hc, if_neg (show ¬((s.upsert b now).1.isOk = true ∧ b.aor = aor ∧ b.contact = y.contact) from fun hh => hc ⟨hh.1, hh.2.1.symm⟩)]
      exact key
  | remove a c now =>
    show (y ∈ (s.removeContact a c).at aor ∧ _) ↔ _
    rw [at_removeContact]
    simp only [after]
    by_cases ha : aor = a
    · subst ha
      rw [if_pos rfl]
      by_cases hy : c = y.contact
      · rw [if_pos (show aor = aor ∧ c = y.contact from ⟨rfl, hy⟩)]
        simp [List.mem_filter, hy]
      · rw [if_neg (show ¬(aor = aor ∧ c = y.contact) from fun hh => hy hh.2), ← key, List.mem_filter]
        constructor
        · rintro ⟨⟨hm, _⟩, hlt⟩; exact ⟨hm, hlt⟩
        · rintro ⟨hm, hlt⟩; exact ⟨⟨hm, by simpa using Ne.symm hy⟩, hlt⟩
    · rw [if_neg ha, if_neg (show ¬(a = aor ∧ c = y.contact) from fun hh => ha hh.1.symm)]
      exact key
  | removeAll a now =>
    show (y ∈ (s.removeAll a).at aor ∧ _) ↔ _
    rw [at_removeAll]
    simp only [after]
    by_cases ha : aor = a
    · subst ha; simp
    · rw [if_neg ha, if_neg (Ne.symm ha)]; exact key
  | lookup a t₁ t₂ =>
    show (y ∈ (s.purge a t₁).at aor ∧ _) ↔ _
    rw [at_purge]
    simp only [after]
    rw [← key]
    split
    · rw [List.mem_filter]
      constructor
      · rintro ⟨⟨hm, _⟩, hlt⟩; exact ⟨hm, hlt⟩
      · rintro ⟨hm, hlt⟩
        simp only [start, finish] at h2 ht
        exact ⟨⟨hm, by simp only [gt_iff_lt, decide_eq_true_eq]; omega⟩, hlt⟩
    · rfl
  | cleanup now =>
    show (y ∈ (s.cleanup now).2.at aor ∧ _) ↔ _
    rw [at_cleanup _ _ _ hg.keys, List.mem_filter]
    simp only [after]
    rw [← key]
    constructor
    · rintro ⟨⟨hm, _⟩, hlt⟩; exact ⟨hm, hlt⟩
    · rintro ⟨hm, hlt⟩
      simp only [start, finish] at ht
      exact ⟨⟨hm, by simp only [gt_iff_lt, decide_eq_true_eq]; omega⟩, hlt⟩

theorem holds_run : ∀ (ops : List StoreOp) (T T' : Nat) (s : Store) (f : Str → Str → Option (Binding × Nat)),
    Good s → Holds T s f → Timed T ops T' →
    Holds T' (s.run ops) (fun aor c => latest.go aor c (trace s ops) (f aor c))
  | [], _, _, _, _, _, h, ht => holds_mono h ht
  | op :: ops, T, T', s, f, hg, h, ht =>
    holds_run ops (finish op) T' (s.step op) _ (good_step s op hg) (holds_step T s f op hg h ht.1 ht.2.1) ht.2.2

theorem lookup_fst (s : Store) (aor : Str) (t₁ t₂ : Nat) :
    (s.lookup aor t₁ t₂).1 =
      (((s.at aor).filter (fun x => x.expiresAt > t₁)).filter (fun x => x.expiresAt > t₂)).map (fun x => x.binding aor t₂) := by
  unfold Store.lookup
  simp only [at_purge, if_true]

theorem lookup_fst_le (s : Store) (aor : Str) (t₁ t₂ : Nat) (h : t₁ ≤ t₂) :
    (s.lookup aor t₁ t₂).1 = ((s.at aor).filter (fun x => x.expiresAt > t₂)).map (fun x => x.binding aor t₂) := by
  rw [lookup_fst, List.filter_filter]
  congr 1
  apply List.filter_congr
  intro x _
  rw [Bool.eq_iff_iff]
  simp only [gt_iff_lt, Bool.and_eq_true, decide_eq_true_eq]
  omega

end Siphon.Registrar
