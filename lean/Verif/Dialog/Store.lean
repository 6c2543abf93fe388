import Verif.Dialog.Model
import Verif.Base.Table
/-!
# The dialog store (C75)

Model of `InMemoryDialogStore` in `crates/sip-dialog/src/storage.rs`: the dialogs by identifier, and an index from Call-ID
to identifiers. The async methods never wait, so one call is a sequence of operations on the two maps; with several threads
the operations of different calls mix.
-/
namespace Siphon.Dlg

/-- storage.rs 10 -/
def MAX_DIALOGS : Nat := 100000

/-- storage.rs 32-36 `InMemoryDialogStore`. -/
structure Store where
  inner : Tbl DialogId Dialog := []
  byCallId : Tbl Str (List DialogId) := []
  deriving DecidableEq, Repr

namespace Store

/-- storage.rs 47-49 `get` -/
def get (s : Store) (id : DialogId) : Option Dialog := s.inner.get id

/-- storage.rs 40-42 `count`, 90-92 `len` -/
def len (s : Store) : Nat := s.inner.length

/-- storage.rs 80-88 `list_by_call_id` -/
def listByCallId (s : Store) (c : Str) : List Dialog :=
  match s.byCallId.get c with
  | some ids => ids.filterMap (fun id => s.inner.get id)
  | none => []

/-- storage.rs 64: `entry(call_id).or_default().push(dialog_id)` -/
def push (s : Store) (id : DialogId) : Store :=
  match s.byCallId.get id.callId with
  | some _ => { s with byCallId := s.byCallId.update id.callId (fun ids => ids ++ [id]) }
  | none => { s with byCallId := s.byCallId.insert id.callId [id] }

/-- storage.rs 53: the store is at its limit and does not have the dialog. -/
def refuses (s : Store) (d : Dialog) : Bool := s.inner.length ≥ MAX_DIALOGS && !s.inner.contains d.id

/-- storage.rs 51-65 `put` -/
def put (s : Store) (d : Dialog) : Store :=
  if s.refuses d then s else push { s with inner := s.inner.insert d.id d } d.id

/-- storage.rs 71: `ids.retain(|did| did != id)`, on a Call-ID that is in the index. -/
def retain (s : Store) (id : DialogId) : Store :=
  { s with byCallId := s.byCallId.update id.callId (fun ids => ids.filter (fun x => decide (x ≠ id))) }

/-- storage.rs 72: nothing is left for the Call-ID of `id`. -/
def emptied (s : Store) (id : DialogId) : Bool := s.byCallId.get id.callId == some []

/-- storage.rs 67-78 `remove` -/
def remove (s : Store) (id : DialogId) : Store :=
  let s := { s with inner := s.inner.remove id }
  if s.byCallId.contains id.callId then
    let s := retain s id
    if emptied s id then { s with byCallId := s.byCallId.remove id.callId } else s
  else s

end Store

/-! ## Histories of one thread -/

/-- The calls that change a store. -/
inductive StoreOp
  | put (d : Dialog)
  | remove (id : DialogId)

/-- The store after the calls, oldest first. -/
def runStore (ops : List StoreOp) : Store :=
  ops.foldl (fun s o => match o with | .put d => s.put d | .remove id => s.remove id) {}

/-! ## Specification -/

/-- What a store should hold, said with a list of dialogs instead of tables: the dialogs put and not removed since, each
the latest one with its identifier, as long as there is room. -/
inductive Holds : List StoreOp → List Dialog → Prop
  | nil : Holds [] []
  | put {ops ds d} : Holds ops ds → (ds.length < 100000 ∨ ∃ x ∈ ds, x.id = d.id) →
      Holds (ops ++ [.put d]) (d :: ds.filter (fun x => decide (x.id ≠ d.id)))
  | full {ops ds d} : Holds ops ds → 100000 ≤ ds.length → (∀ x ∈ ds, x.id ≠ d.id) → Holds (ops ++ [.put d]) ds
  | remove {ops ds id} : Holds ops ds → Holds (ops ++ [.remove id]) (ds.filter (fun x => decide (x.id ≠ id)))

/-! ## Lemmas -/

namespace Store

/-- Index and table agree. -/
structure Ok (s : Store) : Prop where
  keys : (Tbl.keys s.inner).Nodup
  own : ∀ p ∈ s.inner, p.2.id = p.1
  idx : ∀ id, (s.inner.get id).isSome = true ↔ ∃ ids, s.byCallId.get id.callId = some ids ∧ id ∈ ids
  call : ∀ c ids, s.byCallId.get c = some ids → ∀ id ∈ ids, id.callId = c

theorem push_inner (s : Store) (id : DialogId) : (push s id).inner = s.inner := by
  unfold push; split <;> rfl

theorem push_get (s : Store) (id : DialogId) (c : Str) : (push s id).byCallId.get c =
    if c = id.callId then some ((s.byCallId.get c).getD [] ++ [id]) else s.byCallId.get c := by
  unfold push
  by_cases hc : c = id.callId
  · subst hc
    rw [if_pos rfl]
    split
    · rename_i ids h; simp [Tbl.get_update_self, h]
    · rename_i h; simp [h]
  · rw [if_neg hc]
    split
    · simp only; exact Tbl.get_update_ne _ _ hc
    · simp only; exact Tbl.get_insert_ne _ _ hc

theorem ok_put {s : Store} (h : Ok s) (d : Dialog) : Ok (s.put d) := by
  unfold put
  split
  · exact h
  · refine ⟨?_, ?_, ?_, ?_⟩
    · rw [push_inner]; exact Tbl.nodup_insert _ _ _ h.keys
    · rw [push_inner]
      intro p hp
      rcases List.mem_cons.1 hp with rfl | hp
      · rfl
      · exact h.own p (List.mem_filter.1 hp).1
    · intro id
      rw [push_inner, push_get]
      simp only
      by_cases he : id = d.id
      · subst he
        simp
      · rw [Tbl.get_insert_ne _ _ he, h.idx id]
        by_cases hc : id.callId = d.id.callId
        · rw [if_pos hc]
          constructor
          · rintro ⟨ids, h1, h2⟩
            exact ⟨_, rfl, by rw [h1]; simp [h2]⟩
          · rintro ⟨ids, h1, h2⟩
            cases h1
            rcases List.mem_append.1 h2 with h2 | h2
            · cases hg : s.byCallId.get id.callId with
              | none => rw [hg] at h2; simp at h2
              | some ids => rw [hg] at h2; exact ⟨ids, rfl, by simpa using h2⟩
            · simp at h2; exact absurd h2 he
        · rw [if_neg hc]
    · intro c ids
      rw [push_get]
      simp only
      split
      · rename_i hc
        intro e id hid
        cases e
        rcases List.mem_append.1 hid with hid | hid
        · cases hg : s.byCallId.get c with
          | none => rw [hg] at hid; simp at hid
          | some ids => rw [hg] at hid; exact h.call c ids hg id (by simpa using hid)
        · simp at hid; rw [hid, hc]
      · exact h.call c ids

theorem remove_inner (s : Store) (id : DialogId) : (s.remove id).inner = s.inner.remove id := by
  unfold remove retain
  simp only
  split
  · split <;> rfl
  · rfl

/-- What the index says after `remove`. -/
theorem remove_get (s : Store) (id : DialogId) (c : Str) : (s.remove id).byCallId.get c =
    if c = id.callId then
      (match s.byCallId.get c with
       | none => none
       | some ids => if ids.filter (fun x => decide (x ≠ id)) = [] then none else some (ids.filter (fun x => decide (x ≠ id))))
    else s.byCallId.get c := by
  unfold remove retain emptied
  simp only
  by_cases hc : c = id.callId
  · subst hc
    rw [if_pos rfl]
    cases hg : s.byCallId.get id.callId with
    | none => simp [Tbl.contains, hg]
    | some ids =>
      simp only [Tbl.contains, hg, Option.isSome_some, if_true, Tbl.get_update_self, Option.map_some]
      by_cases he : ids.filter (fun x => decide (x ≠ id)) = []
      · simp only [he, beq_self_eq_true, if_true, Tbl.get_remove_self]
      · have hb : (some (ids.filter (fun x => decide (x ≠ id))) == some []) = false := by simpa using he
        simp only [hb, Bool.false_eq_true, if_false, Tbl.get_update_self, hg, Option.map_some, he]
  · rw [if_neg hc]
    split
    · split
      · simp only; rw [Tbl.get_remove_ne _ hc, Tbl.get_update_ne _ _ hc]
      · exact Tbl.get_update_ne _ _ hc
    · rfl

theorem ok_remove {s : Store} (h : Ok s) (id : DialogId) : Ok (s.remove id) := by
  refine ⟨?_, ?_, ?_, ?_⟩
  · rw [remove_inner]; exact Tbl.nodup_remove _ _ h.keys
  · rw [remove_inner]
    intro p hp
    exact h.own p (List.mem_filter.1 hp).1
  · intro x
    rw [remove_inner, remove_get]
    by_cases he : x = id
    · subst he
      rw [Tbl.get_remove_self, if_pos rfl]
      simp only [Option.isSome_none, Bool.false_eq_true, false_iff]
      rintro ⟨ids, h1, h2⟩
      split at h1
      · cases h1
      · split at h1
        · cases h1
        · cases h1; simp at h2
    · rw [Tbl.get_remove_ne _ he, h.idx x]
      by_cases hc : x.callId = id.callId
      · rw [if_pos hc]
        constructor
        · rintro ⟨ids, h1, h2⟩
          rw [h1]
          have hm : x ∈ ids.filter (fun x => decide (x ≠ id)) := by simp [h2, he]
          refine ⟨_, ?_, hm⟩
          simp only
          rw [if_neg (fun e => by rw [e] at hm; cases hm)]
        · rintro ⟨ids, h1, h2⟩
          cases hg : s.byCallId.get x.callId with
          | none => rw [hg] at h1; cases h1
          | some l =>
            rw [hg] at h1
            simp only at h1
            split at h1
            · cases h1
            · cases h1
              exact ⟨l, rfl, (List.mem_filter.1 h2).1⟩
      · rw [if_neg hc]
  · intro c ids
    rw [remove_get]
    split
    · intro h1
      cases hg : s.byCallId.get c with
      | none => rw [hg] at h1; cases h1
      | some l =>
        rw [hg] at h1
        simp only at h1
        split at h1
        · cases h1
        · cases h1
          exact fun x hx => h.call c l hg x (List.mem_filter.1 hx).1
    · exact h.call c ids

theorem ok_init : Ok {} := ⟨by simp [Tbl.keys], by simp, by simp, by simp⟩

end Store

theorem runStore_snoc (ops : List StoreOp) (o : StoreOp) : runStore (ops ++ [o]) =
    (match o with | .put d => (runStore ops).put d | .remove id => (runStore ops).remove id) := by
  unfold runStore
  rw [List.foldl_append]
  rfl

theorem runStore_ok (ops : List StoreOp) : (runStore ops).Ok := by
  rw [← List.reverse_reverse ops]
  induction ops.reverse with
  | nil => exact Store.ok_init
  | cons o ops ih =>
    rw [List.reverse_cons, runStore_snoc]
    cases o with
    | put d => exact Store.ok_put ih d
    | remove id => exact Store.ok_remove ih id

/-- The table as a list of dialogs. -/
theorem holds_run (ops : List StoreOp) (ds : List Dialog) (h : Holds ops ds) : (runStore ops).inner.map (·.2) = ds := by
  have hfilter : ∀ (t : Tbl DialogId Dialog) (id : DialogId), (∀ p ∈ t, p.2.id = p.1) →
      (t.remove id).map (·.2) = (t.map (·.2)).filter (fun x => decide (x.id ≠ id)) := by
    intro t id ho
    unfold Tbl.remove
    rw [List.filter_map]
    congr 1
    refine List.filter_congr (fun p hp => ?_)
    simp only [Function.comp, ho p hp]
  have hmem : ∀ (ops : List StoreOp) (ds : List Dialog), (runStore ops).inner.map (·.2) = ds → ∀ id,
      ((runStore ops).inner.contains id = true ↔ ∃ x ∈ ds, x.id = id) := by
    intro ops ds e id
    unfold Tbl.contains
    rw [Tbl.get_isSome_iff, ← e]
    have ho := (runStore_ok ops).own
    constructor
    · intro hm
      obtain ⟨p, hp, rfl⟩ := List.mem_map.1 hm
      exact ⟨p.2, List.mem_map.2 ⟨p, hp, rfl⟩, ho p hp⟩
    · rintro ⟨x, hx, rfl⟩
      obtain ⟨p, hp, rfl⟩ := List.mem_map.1 hx
      exact List.mem_map.2 ⟨p, hp, (ho p hp).symm⟩
  induction h with
  | nil => rfl
  | @put ops ds d _ hroom ih =>
    rw [runStore_snoc]
    have hl : (runStore ops).inner.length = ds.length := by rw [← ih]; simp
    have hr : (runStore ops).refuses d = false := by
      unfold Store.refuses MAX_DIALOGS
      rw [hl]
      rcases hroom with hroom | hroom
      · have : ¬ (ds.length ≥ 100000) := by omega
        simp only [decide_eq_false this, Bool.false_and]
      · rw [(hmem ops ds ih d.id).2 hroom]; simp
    simp only [Store.put, hr, Bool.false_eq_true, if_false, Store.push_inner, Tbl.insert, List.map_cons]
    rw [hfilter _ _ (runStore_ok ops).own, ih]
  | @full ops ds d _ hfull hno ih =>
    rw [runStore_snoc]
    have hl : (runStore ops).inner.length = ds.length := by rw [← ih]; simp
    have hc : (runStore ops).inner.contains d.id = false := by
      rw [Bool.eq_false_iff]
      intro e
      obtain ⟨x, hx, he⟩ := (hmem ops ds ih d.id).1 e
      exact hno x hx he
    have hr : (runStore ops).refuses d = true := by
      unfold Store.refuses MAX_DIALOGS
      rw [hl, hc]
      simp [hfull]
    simp only [Store.put, hr, if_true, ih]
  | @remove ops ds id _ ih =>
    rw [runStore_snoc]
    simp only [Store.remove_inner]
    rw [hfilter _ _ (runStore_ok ops).own, ih]

theorem holds_exists (ops : List StoreOp) : ∃ ds, Holds ops ds := by
  rw [← List.reverse_reverse ops]
  induction ops.reverse with
  | nil => exact ⟨_, .nil⟩
  | cons o ops ih =>
    rw [List.reverse_cons]
    obtain ⟨ds, h⟩ := ih
    cases o with
    | remove id => exact ⟨_, .remove h⟩
    | put d =>
      by_cases hr : ds.length < 100000 ∨ ∃ x ∈ ds, x.id = d.id
      · exact ⟨_, .put h hr⟩
      · refine ⟨_, .full h (by rw [not_or] at hr; omega) ?_⟩
        intro x hx e
        exact hr (.inr ⟨x, hx, e⟩)

/-! ## Properties -/

/-- C75: after every history, `get` finds exactly the dialogs that the history leaves in the store. -/
theorem C75_get (ops : List StoreOp) (ds : List Dialog) (h : Holds ops ds) (id : DialogId) (d : Dialog) :
    (runStore ops).get id = some d ↔ d ∈ ds ∧ d.id = id := by
  have hok := runStore_ok ops
  rw [← holds_run ops ds h]
  unfold Store.get
  constructor
  · intro hg
    have hm := Tbl.mem_of_get _ _ _ hg
    exact ⟨List.mem_map.2 ⟨_, hm, rfl⟩, hok.own _ hm⟩
  · rintro ⟨hm, rfl⟩
    obtain ⟨p, hp, rfl⟩ := List.mem_map.1 hm
    refine Tbl.get_of_mem _ _ _ hok.keys ?_
    rw [hok.own p hp]
    exact hp

/-- C75: every history leaves something determined in the store, so the other theorems apply to every history. -/
theorem C75_total (ops : List StoreOp) : ∃ ds, Holds ops ds := holds_exists ops

/-- C75: the store never has more than 100 000 dialogs, and `len` counts them. -/
theorem C75_size (ops : List StoreOp) (ds : List Dialog) (h : Holds ops ds) :
    (runStore ops).len = ds.length ∧ ds.length ≤ 100000 := by
  refine ⟨by rw [← holds_run ops ds h]; simp [Store.len], ?_⟩
  induction h with
  | nil => simp
  | @put ops ds d h hroom ih =>
    simp only [List.length_cons]
    rcases hroom with hroom | ⟨x, hx, he⟩
    · have := List.length_filter_le (fun x : Dialog => decide (x.id ≠ d.id)) ds; omega
    · have : (ds.filter (fun x => decide (x.id ≠ d.id))).length < ds.length := by
        refine List.length_filter_lt_length_iff_exists.2 ⟨x, hx, ?_⟩
        simp [he]
      omega
  | full _ _ _ ih => exact ih
  | @remove ops ds id _ ih =>
    have := List.length_filter_le (fun x : Dialog => decide (x.id ≠ id)) ds; omega

/-- C75: listing a Call-ID gives exactly the stored dialogs with that Call-ID, after every history. -/
theorem C75_list (ops : List StoreOp) (ds : List Dialog) (h : Holds ops ds) (c : Str) (d : Dialog) :
    d ∈ (runStore ops).listByCallId c ↔ d ∈ ds ∧ d.id.callId = c := by
  have hok := runStore_ok ops
  have hget : ∀ id, (runStore ops).inner.get id = some d ↔ d ∈ ds ∧ d.id = id := fun id => C75_get ops ds h id d
  unfold Store.listByCallId
  cases hg : (runStore ops).byCallId.get c with
  | none =>
    simp only [List.not_mem_nil, false_iff]
    rintro ⟨hm, rfl⟩
    have := (hget d.id).2 ⟨hm, rfl⟩
    obtain ⟨ids, h1, _⟩ := (hok.idx d.id).1 (by rw [this]; rfl)
    rw [h1] at hg
    cases hg
  | some ids =>
    simp only [List.mem_filterMap]
    constructor
    · rintro ⟨id, h1, h2⟩
      obtain ⟨h3, h4⟩ := (hget id).1 h2
      exact ⟨h3, by rw [h4]; exact hok.call c ids hg id h1⟩
    · rintro ⟨h1, rfl⟩
      have := (hget d.id).2 ⟨h1, rfl⟩
      obtain ⟨ids', h3, h4⟩ := (hok.idx d.id).1 (by rw [this]; rfl)
      rw [hg] at h3
      cases h3
      exact ⟨d.id, h4, this⟩

/-- No `put` of the history replaces a stored dialog. -/
inductive Fresh : List StoreOp → Prop
  | nil : Fresh []
  | put {ops ds d} : Fresh ops → Holds ops ds → (∀ x ∈ ds, x.id ≠ d.id) → Fresh (ops ++ [.put d])
  | remove {ops id} : Fresh ops → Fresh (ops ++ [.remove id])

/-- C75, in part: a dialog is listed once, if no `put` replaced a stored dialog. Missing: histories in which a dialog is put
again (see `C75_listed_twice`). -/
theorem C75_once_partial (ops : List StoreOp) (h : Fresh ops) (c : Str) : ((runStore ops).listByCallId c).Nodup := by
  have hids : ∀ c ids, (runStore ops).byCallId.get c = some ids → ids.Nodup := by
    induction h with
    | nil => intro c ids hg; cases hg
    | @put ops ds d _ hh hno ih =>
      rw [runStore_snoc]
      simp only [Store.put]
      split
      · exact ih
      · intro c ids
        rw [Store.push_get]
        simp only
        split
        · rename_i hc
          intro e
          cases e
          cases hg : (runStore ops).byCallId.get c with
          | none => simp
          | some l =>
            simp only [Option.getD_some]
            rw [List.nodup_append]
            refine ⟨ih c l hg, by simp, ?_⟩
            intro a ha b hb e
            simp at hb
            subst hb
            subst e
            have := ((runStore_ok ops).idx d.id).2 ⟨l, by rw [← hc]; exact hg, ha⟩
            obtain ⟨x, hx⟩ := Option.isSome_iff_exists.1 this
            have := (C75_get ops ds hh d.id x).1 hx
            exact hno x this.1 this.2
        · exact ih c ids
    | @remove ops id _ ih =>
      rw [runStore_snoc]
      simp only
      intro c ids
      rw [Store.remove_get]
      split
      · cases hg : (runStore ops).byCallId.get c with
        | none => intro e; cases e
        | some l =>
          simp only
          split
          · intro e; cases e
          · intro e; cases e; exact (ih c l hg).filter _
      · exact ih c ids
  unfold Store.listByCallId
  cases hg : (runStore ops).byCallId.get c with
  | none => simp
  | some ids =>
    simp only
    have hn := hids c ids hg
    have hown := (runStore_ok ops).own
    clear hg
    induction ids with
    | nil => simp
    | cons i ids ih =>
      rw [List.nodup_cons] at hn
      rw [List.filterMap_cons]
      split
      · exact ih hn.2
      · rename_i x hx
        rw [List.nodup_cons]
        refine ⟨?_, ih hn.2⟩
        intro hm
        obtain ⟨j, hj, hjx⟩ := List.mem_filterMap.1 hm
        have h1 := hown _ (Tbl.mem_of_get _ _ _ hx)
        have h2 := hown _ (Tbl.mem_of_get _ _ _ hjx)
        simp only at h1 h2
        rw [h1] at h2
        exact hn.1 (h2 ▸ hj)

/-- C75 (finding): storing a dialog again, which is how its state is updated, lists it once more; after `n` updates its
Call-ID lists it `n` times, so the index grows for as long as the call lasts. -/
theorem C75_listed_twice (d : Dialog) (n : Nat) :
    ((runStore (List.replicate n (.put d))).listByCallId d.id.callId) = List.replicate n d := by
  have key : n = 0 ∨ ((runStore (List.replicate n (.put d))).inner = [(d.id, d)] ∧
      (runStore (List.replicate n (.put d))).byCallId.get d.id.callId = some (List.replicate n d.id)) := by
    induction n with
    | zero => exact .inl rfl
    | succ n ih =>
      right
      rw [List.replicate_succ', runStore_snoc]
      simp only [Store.put]
      have hr : (runStore (List.replicate n (.put d))).refuses d = false := by
        unfold Store.refuses
        rcases ih with rfl | ⟨h1, _⟩
        · rfl
        · rw [h1]; simp [MAX_DIALOGS]
      rw [hr]
      simp only [Bool.false_eq_true, if_false, Store.push_inner, Store.push_get, if_true]
      rcases ih with rfl | ⟨h1, h2⟩
      · exact ⟨rfl, rfl⟩
      · refine ⟨?_, ?_⟩
        · rw [h1]; simp [Tbl.insert, Tbl.remove]
        · rw [h2]; simp [List.replicate_succ']
  rcases key with rfl | ⟨h1, h2⟩
  · rfl
  · unfold Store.listByCallId
    rw [h2]
    simp only [h1]
    induction n with
    | zero => rfl
    | succ n _ =>
      clear h2
      have : ∀ m, (List.replicate m d.id).filterMap (fun id => Tbl.get [(d.id, d)] id) = List.replicate m d := by
        intro m
        induction m with
        | zero => rfl
        | succ m ih => rw [List.replicate_succ, List.filterMap_cons]; simp [Tbl.get_cons, List.replicate_succ]
      exact this _

/-! ## Several threads -/

/-- Where a thread is in its call. -/
inductive Pc
  | putCheck (d : Dialog)
  | putInsert (d : Dialog)
  | putPush (id : DialogId)
  | removeInner (id : DialogId)
  | removeRetain (id : DialogId)
  | removeEntry (c : Str)
  | done
  deriving DecidableEq

/-- One operation on one of the maps: storage.rs 53 (the two reads as one), 63, 64 (entry locked), 68, 70-73 (entry locked),
74 (after the lock is gone). -/
def Pc.step (s : Store) : Pc → Store × Pc
  | .putCheck d => (s, if s.refuses d then .done else .putInsert d)
  | .putInsert d => ({ s with inner := s.inner.insert d.id d }, .putPush d.id)
  | .putPush id => (s.push id, .done)
  | .removeInner id => ({ s with inner := s.inner.remove id }, .removeRetain id)
  | .removeRetain id =>
    if s.byCallId.contains id.callId then
      let s := s.retain id
      (s, if s.emptied id then .removeEntry id.callId else .done)
    else (s, .done)
  | .removeEntry c => ({ s with byCallId := s.byCallId.remove c }, .done)
  | .done => (s, .done)

/-- One thread after the other takes a step: `sched` says which. -/
def runThreads : Store → List Pc → List Nat → Store × List Pc
  | s, ps, [] => (s, ps)
  | s, ps, i :: sched =>
    match ps[i]? with
    | none => runThreads s ps sched
    | some p => runThreads (p.step s).1 (ps.set i (p.step s).2) sched

/-- A thread that runs alone does what the call does. -/
theorem C75_alone_put (s : Store) (d : Dialog) : runThreads s [.putCheck d] [0, 0, 0] = (s.put d, [.done]) := by
  unfold Store.put
  by_cases h : s.refuses d = true
  · simp [runThreads, Pc.step, h]
  · simp [runThreads, Pc.step, h]

theorem C75_alone_remove (s : Store) (id : DialogId) :
    runThreads s [.removeInner id] [0, 0, 0] = (s.remove id, [.done]) := by
  unfold Store.remove
  simp only
  by_cases h : s.byCallId.contains id.callId = true
  · simp only [runThreads, List.getElem?_cons_zero, Pc.step, List.set_cons_zero, h, if_true]
    by_cases h2 : Store.emptied (Store.retain { s with inner := s.inner.remove id } id) id = true
    · simp [h2]
    · simp [h2]
  · simp [runThreads, Pc.step, h]

/-- Two dialogs of one call, for the examples. -/
def forkA : Dialog :=
  { id := ⟨"c".toList, "l".toList, "a".toList⟩, state := .early, remoteTarget := ⟨"sip:h".toList, false, none, "h".toList, none, [], []⟩,
    routeSet := [], localCSeq := 1, remoteCSeq := 0, lastAck := none, localUri := ⟨"sip:h".toList, false, none, "h".toList, none, [], []⟩,
    remoteUri := ⟨"sip:h".toList, false, none, "h".toList, none, [], []⟩, secure := false, sessionExpires := none, refresher := none, isUac := true }
def forkB : Dialog := { forkA with id := ⟨"c".toList, "l".toList, "b".toList⟩ }


example : Fresh [.put forkA, .put forkB, .remove forkA.id, .put forkA] := by
  have h0 := Fresh.nil.put (d := forkA) Holds.nil (by simp)
  have e0 := Holds.nil.put (d := forkA) (.inl (by simp))
  have h1 := h0.put (d := forkB) e0 (by decide)
  have e1 := e0.put (d := forkB) (.inl (by decide))
  have h2 := h1.remove (id := forkA.id)
  have e2 := e1.remove (id := forkA.id)
  exact h2.put (d := forkA) e2 (by decide)

example : (runStore [.put forkA, .put forkB, .remove forkA.id]).listByCallId "c".toList = [forkB] := by decide

/-- C75 (finding): while one thread removes the last dialog of a call, another stores a fork of it. The new dialog is in the
store and stays there, but its Call-ID does not list it. -/
theorem C75_race_lost : ∃ sched, ∃ s, runThreads (runStore [.put forkA]) [.removeInner forkA.id, .putCheck forkB] sched =
    (s, [.done, .done]) ∧ s.get forkB.id = some forkB ∧ s.listByCallId "c".toList = [] :=
  ⟨[0, 0, 1, 1, 1, 0], _, rfl, by decide, by decide⟩

/-- C75 (finding): the same when a dialog is stored again while it is removed. -/
theorem C75_race_same : ∃ sched, ∃ s, runThreads (runStore [.put forkA]) [.removeInner forkA.id, .putCheck forkA] sched =
    (s, [.done, .done]) ∧ s.get forkA.id = some forkA ∧ s.listByCallId "c".toList = [] :=
  ⟨[0, 1, 1, 1, 0, 0], _, rfl, by decide, by decide⟩

/-- A thread that stores a dialog, or has done so. -/
def Pc.IsPut : Pc → Prop
  | .putCheck _ | .putInsert _ | .putPush _ | .done => True
  | _ => False

/-- Every stored dialog is in the index, or a thread is about to put it there. -/
structure Going (s : Store) (ps : List Pc) : Prop where
  keys : ∀ id d, s.inner.get id = some d → d.id = id
  idx : ∀ id, (s.inner.get id).isSome = true → .putPush id ∈ ps ∨ ∃ ids, s.byCallId.get id.callId = some ids ∧ id ∈ ids
  puts : ∀ p ∈ ps, p.IsPut

theorem going_step {s : Store} {ps : List Pc} (h : Going s ps) {i : Nat} {p : Pc} (hi : ps[i]? = some p) :
    Going (p.step s).1 (ps.set i (p.step s).2) := by
  have hlt : i < ps.length := (List.getElem?_eq_some_iff.1 hi).1
  have hmem : p ∈ ps := List.mem_of_getElem? hi
  have hkeep : ∀ q id, p ≠ .putPush id → .putPush id ∈ ps → .putPush id ∈ ps.set i q := by
    intro q id hne hm
    obtain ⟨j, hj⟩ := List.getElem?_of_mem hm
    have hij : i ≠ j := by
      rintro rfl
      rw [hi] at hj
      cases hj
      exact hne rfl
    refine List.mem_of_getElem? (i := j) ?_
    rw [List.getElem?_set_ne hij]
    exact hj
  have hputs : ∀ q : Pc, q.IsPut → ∀ x ∈ ps.set i q, x.IsPut := by
    intro q hq x hx
    rcases List.mem_or_eq_of_mem_set hx with hx | rfl
    · exact h.puts x hx
    · exact hq
  cases p with
  | putCheck d =>
    simp only [Pc.step]
    refine ⟨h.keys, ?_, ?_⟩
    · intro id hid
      rcases h.idx id hid with hp | hp
      · exact .inl (hkeep _ id (by simp) hp)
      · exact .inr hp
    · split
      · exact hputs _ trivial
      · exact hputs _ trivial
  | putInsert d =>
    simp only [Pc.step]
    refine ⟨?_, ?_, hputs _ trivial⟩
    · intro id x
      simp only
      by_cases he : id = d.id
      · subst he; simp only [Tbl.get_insert_self, Option.some.injEq]; rintro rfl; rfl
      · rw [Tbl.get_insert_ne _ _ he]; exact h.keys id x
    · intro id
      simp only
      by_cases he : id = d.id
      · subst he
        intro _
        left
        exact List.mem_set hlt _
      · rw [Tbl.get_insert_ne _ _ he]
        intro hid
        rcases h.idx id hid with hp | hp
        · exact .inl (hkeep _ id (by simp) hp)
        · exact .inr hp
  | putPush x =>
    simp only [Pc.step]
    refine ⟨by rw [Store.push_inner]; exact h.keys, ?_, hputs _ trivial⟩
    intro id
    rw [Store.push_inner]
    intro hid
    rw [Store.push_get]
    by_cases he : id = x
    · subst he
      right
      rw [if_pos rfl]
      exact ⟨_, rfl, by simp⟩
    · rcases h.idx id hid with hp | ⟨ids, h1, h2⟩
      · exact .inl (hkeep _ id (by simpa using Ne.symm he) hp)
      · right
        split
        · exact ⟨_, rfl, by rw [h1]; simp [h2]⟩
        · exact ⟨ids, h1, h2⟩
  | removeInner _ => exact (h.puts _ hmem).elim
  | removeRetain _ => exact (h.puts _ hmem).elim
  | removeEntry _ => exact (h.puts _ hmem).elim
  | done =>
    simp only [Pc.step]
    have : ps.set i .done = ps := by rw [List.getElem?_eq_some_iff] at hi; obtain ⟨_, e⟩ := hi; rw [← e]; exact List.set_getElem_self _
    rw [this]
    exact h

theorem going_run : ∀ (sched : List Nat) (s : Store) (ps : List Pc), Going s ps →
    Going (runThreads s ps sched).1 (runThreads s ps sched).2
  | [], _, _, h => h
  | i :: sched, s, ps, h => by
    rw [runThreads]
    split
    · exact going_run sched s ps h
    · rename_i p hp
      exact going_run sched _ _ (going_step h hp)

/-- C75, in part: any number of threads store dialogs at the same time, in any interleaving, after any history. Once they
are done, every stored dialog is listed under its Call-ID. Missing: threads that remove dialogs meanwhile, for which it is
false (`C75_race_lost`). -/
theorem C75_concurrent_partial (ops : List StoreOp) (ds : List Dialog) (sched : List Nat) (s : Store) (ps : List Pc)
    (h : runThreads (runStore ops) (ds.map .putCheck) sched = (s, ps)) (hd : ∀ p ∈ ps, p = .done) (d : Dialog)
    (hg : s.get d.id = some d) : d ∈ s.listByCallId d.id.callId := by
  have hok := runStore_ok ops
  have hgo := going_run sched (runStore ops) (ds.map .putCheck)
    ⟨fun id x hx => hok.own _ (Tbl.mem_of_get _ _ _ hx), fun id hid => .inr ((hok.idx id).1 hid), by
      intro p hp; obtain ⟨x, _, rfl⟩ := List.mem_map.1 hp; trivial⟩
  rw [h] at hgo
  unfold Store.get at hg
  rcases hgo.idx d.id (by simp only; rw [hg]; rfl) with hp | ⟨ids, h1, h2⟩
  · exact absurd (hd _ hp) (by simp)
  · unfold Store.listByCallId
    simp only at h1
    rw [h1]
    exact List.mem_filterMap.2 ⟨d.id, h2, hg⟩

/-- the hypotheses are met: two threads, mixed -/
example : ∃ s, runThreads (runStore []) ([forkA, forkB].map .putCheck) [0, 1, 1, 0, 0, 1] = (s, [.done, .done]) ∧
    s.get forkA.id = some forkA ∧ s.get forkB.id = some forkB := ⟨_, rfl, by decide, by decide⟩

end Siphon.Dlg
