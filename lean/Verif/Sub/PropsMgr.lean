import Verif.Sub.Spec
set_option linter.unusedSimpArgs false
/-!
# The table of subscriptions: C102
-/
namespace Siphon.Sub
open Spec

namespace SubMgr

/-- The table after calls, oldest first. -/
def run (cs : List Call) : SubMgr :=
  cs.foldl (fun m c => match c with
    | .insert s => (m.insert s).2
    | .remove id => (m.remove id).2
    | .cleanup => m.cleanup.2) []

/-- Every entry is under its own identifier and no identifier is there twice. -/
structure Ok (m : SubMgr) : Prop where
  keys : (Tbl.keys m).Nodup
  own : ∀ p ∈ m, p.2.id = p.1

theorem ok_insert {m : SubMgr} (h : Ok m) (s : Sub) : Ok (m.insert s).2 := by
  unfold insert
  split
  · exact h
  · refine ⟨Tbl.nodup_insert _ _ _ h.keys, ?_⟩
    intro p hp
    rcases List.mem_cons.1 hp with rfl | hp
    · rfl
    · exact h.own p (List.mem_filter.1 hp).1

theorem ok_drop {m : SubMgr} (h : Ok m) (id : SubId) : Ok (Tbl.remove m id) :=
  ⟨Tbl.nodup_remove _ _ h.keys, fun p hp => h.own p (List.mem_filter.1 hp).1⟩

theorem ok_removeAll : ∀ (ids : List SubId) {m : SubMgr}, Ok m → Ok (m.removeAll ids)
  | [], _, h => h
  | id :: ids, _, h => ok_removeAll ids (ok_drop h id)

theorem removeAll_eq : ∀ (ids : List SubId) (m : SubMgr), m.removeAll ids = m.filter (fun p => decide (p.1 ∉ ids))
  | [], m => by
    show m = _
    rw [List.filter_eq_self.2]
    simp
  | id :: ids, m => by
    show removeAll (Tbl.remove m id) ids = _
    rw [removeAll_eq ids]
    unfold Tbl.remove
    rw [List.filter_filter]
    apply List.filter_congr
    intro p _
    simp [Bool.and_comm]

theorem mem_terminated {m : SubMgr} (id : SubId) : id ∈ m.terminated ↔ ∃ s, (id, s) ∈ m ∧ s.state = .terminated := by
  simp only [terminated, List.mem_map, List.mem_filter, decide_eq_true_eq]
  constructor
  · rintro ⟨⟨a, b⟩, ⟨h1, h2⟩, rfl⟩; exact ⟨b, h1, h2⟩
  · rintro ⟨s, h1, h2⟩; exact ⟨(id, s), ⟨h1, h2⟩, rfl⟩

theorem cleanup_eq {m : SubMgr} (h : Ok m) : m.cleanup.2 = m.filter (fun p => decide (p.2.state ≠ .terminated)) := by
  show m.removeAll m.terminated = _
  rw [removeAll_eq]
  apply List.filter_congr
  intro p hp
  rw [decide_eq_decide]
  constructor
  · intro h1 h2; exact h1 ((mem_terminated p.1).2 ⟨p.2, hp, h2⟩)
  · intro h1 h2
    obtain ⟨s, hs, ht⟩ := (mem_terminated p.1).1 h2
    have e1 := Tbl.get_of_mem m p.1 s h.keys hs
    have e2 := Tbl.get_of_mem m p.1 p.2 h.keys hp
    rw [e1] at e2
    cases e2
    exact h1 ht

theorem map_filter_snd (m : SubMgr) (f : SubId × Sub → Bool) (g : Sub → Bool) (h : ∀ p ∈ m, f p = g p.2) :
    (m.filter f).map (·.2) = (m.map (·.2)).filter g := by
  rw [List.filter_map]
  congr 1
  apply List.filter_congr
  intro p hp
  exact h p hp

/-- The table holds exactly what the specification says. -/
theorem run_holds : ∀ {cs : List Call} {ss : List Sub}, Holds cs ss → Ok (run cs) ∧ (run cs).all = ss := by
  intro cs ss h
  induction h with
  | nil => exact ⟨⟨List.nodup_nil, by simp [run]⟩, rfl⟩
  | @insert cs ss s _ hl ih =>
    obtain ⟨h1, h2⟩ := ih
    have hlen : (run cs).length < 10000 := by
      have : (run cs).length = ss.length := by rw [← h2]; simp [all]
      omega
    have e : run (cs ++ [.insert s]) = ((run cs).insert s).2 := by simp [run]
    rw [e]
    refine ⟨ok_insert h1 s, ?_⟩
    unfold insert
    rw [if_neg (by unfold MAX_SUBSCRIPTIONS; omega)]
    show s :: (Tbl.remove (run cs) s.id).map (·.2) = _
    unfold Tbl.remove
    rw [map_filter_snd _ _ (fun x => decide (x.id ≠ s.id)) (fun p hp => by rw [h1.own p hp])]
    rw [show (run cs).map (·.2) = ss from h2]
  | @full cs ss s _ hl ih =>
    obtain ⟨h1, h2⟩ := ih
    have hlen : (run cs).length = ss.length := by rw [← h2]; simp [all]
    have e : run (cs ++ [.insert s]) = ((run cs).insert s).2 := by simp [run]
    rw [e]
    unfold insert
    rw [if_pos (by unfold MAX_SUBSCRIPTIONS; omega)]
    exact ⟨h1, h2⟩
  | @remove cs ss id _ ih =>
    obtain ⟨h1, h2⟩ := ih
    have e : run (cs ++ [.remove id]) = Tbl.remove (run cs) id := by simp [run, remove]
    rw [e]
    refine ⟨ok_drop h1 id, ?_⟩
    show (Tbl.remove (run cs) id).map (·.2) = _
    unfold Tbl.remove
    rw [map_filter_snd _ _ (fun x => decide (x.id ≠ id)) (fun p hp => by rw [h1.own p hp])]
    rw [show (run cs).map (·.2) = ss from h2]
  | @cleanup cs ss _ ih =>
    obtain ⟨h1, h2⟩ := ih
    have e : run (cs ++ [.cleanup]) = (run cs).cleanup.2 := by simp [run]
    rw [e]
    refine ⟨ok_removeAll _ h1, ?_⟩
    rw [cleanup_eq h1]
    show (List.filter _ (run cs)).map (·.2) = _
    rw [map_filter_snd _ _ (fun x => decide (x.state ≠ .terminated)) (fun p _ => rfl)]
    rw [show (run cs).map (·.2) = ss from h2]

end SubMgr
open SubMgr

/-- Every history has its contents. -/
theorem C102_total : ∀ (cs : List Call), ∃ ss, Holds cs ss := by
  intro cs
  rw [← List.reverse_reverse cs]
  induction cs.reverse with
  | nil => exact ⟨[], .nil⟩
  | cons c l ih =>
    obtain ⟨ss, h⟩ := ih
    rw [List.reverse_cons]
    cases c with
    | insert s =>
      by_cases hl : ss.length < 10000
      · exact ⟨_, .insert h hl⟩
      · exact ⟨_, .full h (by omega)⟩
    | remove id => exact ⟨_, .remove h⟩
    | cleanup => exact ⟨_, .cleanup h⟩

/-- **C102.** After any calls, all the answers of the table are about exactly what it should hold: what is found under an
identifier, all subscriptions, those of an event, whether one more is taken, what a removal and a cleanup report; and that is
never more than 10 000 subscriptions, no two with one identifier. -/
theorem C102_history (cs : List Call) (ss : List Sub) (h : Holds cs ss) :
    ss.length ≤ 10000 ∧ (ss.map (·.id)).Nodup ∧
    (∀ id s, (run cs).get id = some s ↔ s ∈ ss ∧ s.id = id) ∧
    (run cs).all.Perm ss ∧
    (∀ e, ((run cs).byEvent e).Perm (ss.filter (fun x => decide (x.id.event = e)))) ∧
    (∀ s, ((run cs).insert s).1 = true ↔ ss.length < 10000) ∧
    (∀ id s, ((run cs).remove id).1 = some s ↔ s ∈ ss ∧ s.id = id) ∧
    (run cs).cleanup.1 = ss.countP (fun x => decide (x.state = .terminated)) := by
  obtain ⟨h1, h2⟩ := run_holds h
  have hm : (run cs).map (·.2) = ss := h2
  have hlen : (run cs).length = ss.length := by rw [← h2]; simp [all]
  have hget : ∀ id s, Tbl.get (run cs) id = some s ↔ s ∈ ss ∧ s.id = id := by
    intro id s
    constructor
    · intro hg
      have := Tbl.mem_of_get _ _ _ hg
      exact ⟨by rw [← hm]; exact List.mem_map.2 ⟨_, this, rfl⟩, h1.own _ this⟩
    · rintro ⟨hs, rfl⟩
      rw [← hm] at hs
      obtain ⟨p, hp, rfl⟩ := List.mem_map.1 hs
      have := h1.own p hp
      rw [this]
      exact Tbl.get_of_mem _ _ _ h1.keys hp
  refine ⟨?_, ?_, hget, ?_, ?_, ?_, hget, ?_⟩
  · have : ∀ {cs ss}, Holds cs ss → ss.length ≤ 10000 := by
      intro cs ss h
      induction h with
      | nil => simp
      | insert _ hl _ =>
        simp only [List.length_cons]
        exact Nat.lt_of_le_of_lt (List.length_filter_le _ _) hl
      | full _ _ ih => exact ih
      | remove _ ih => exact Nat.le_trans (List.length_filter_le _ _) ih
      | cleanup _ ih => exact Nat.le_trans (List.length_filter_le _ _) ih
    exact this h
  · rw [← hm, List.map_map]
    have : (run cs).map ((fun x => x.id) ∘ (fun p => p.2)) = Tbl.keys (run cs) := by
      unfold Tbl.keys
      apply List.map_congr_left
      intro p hp
      exact h1.own p hp
    rw [this]
    exact h1.keys
  · rw [h2]
  · intro e
    unfold byEvent
    rw [map_filter_snd _ _ (fun x => decide (x.id.event = e)) (fun p _ => rfl), hm]
  · intro s
    unfold SubMgr.insert MAX_SUBSCRIPTIONS
    split
    · simp; omega
    · simp; omega
  · show (terminated (run cs)).length = _
    unfold terminated
    rw [List.length_map, ← List.countP_eq_length_filter, ← hm, List.countP_map]
    rfl

/-! ## A full table -/

/-- **C102.** A full table does not take a new state of a subscription it has: the call fails and the old state stays.  The
callers (`accept_subscribe`, `process_subscribe_response` and the daemon) ignore the failure, so a refresh, and the ending of a
subscription with an expiry of 0, are lost. -/
theorem C102_full_loses_refresh (cs : List Call) (ss : List Sub) (h : Holds cs ss) (hf : 10000 ≤ ss.length) (s old : Sub)
    (ho : (run cs).get s.id = some old) :
    ((run cs).insert s).1 = false ∧ (((run cs).insert s).2).get s.id = some old := by
  have hlen : (run cs).length = ss.length := by rw [← (run_holds h).2]; simp [all]
  unfold SubMgr.insert
  rw [if_pos (by unfold MAX_SUBSCRIPTIONS; omega)]
  exact ⟨rfl, ho⟩

/-- a subscription with the Call-ID `aa…a` -/
def numbered (u : SipUri) (i : Nat) : Sub := ⟨⟨List.replicate i 'a', ['f'], ['t'], ['e']⟩, .active, u, u, u, 60, 1, 0⟩

theorem holds_numbered (u : SipUri) : ∀ n, n ≤ 10000 →
    Holds ((List.range n).map (fun i => .insert (numbered u i))) ((List.range n).reverse.map (numbered u))
  | 0, _ => .nil
  | n + 1, hn => by
    have ih := holds_numbered u n (by omega)
    have := Holds.insert (s := numbered u n) ih (by simp; omega)
    rw [List.range_succ, List.map_append, List.reverse_append]
    have e : ((List.range n).reverse.map (numbered u)).filter (fun x => decide (x.id ≠ (numbered u n).id)) =
        (List.range n).reverse.map (numbered u) := by
      rw [List.filter_eq_self]
      intro x hx
      obtain ⟨i, hi, rfl⟩ := List.mem_map.1 hx
      simp only [List.mem_reverse, List.mem_range] at hi
      simp only [decide_eq_true_eq]
      intro he
      have := congrArg (fun x : SubId => x.callId.length) he
      simp [numbered] at this
      omega
    rw [e] at this
    simpa using this

/-- such a table: it has the subscription with the empty Call-ID, and does not take its end -/
example (u : SipUri) : ∃ cs ss, Holds cs ss ∧ 10000 ≤ ss.length ∧ (run cs).get (numbered u 0).id = some (numbered u 0) ∧
    ((run cs).insert { numbered u 0 with state := .terminated }).1 = false := by
  have h := holds_numbered u 10000 (Nat.le_refl _)
  have hl : 10000 ≤ ((List.range 10000).reverse.map (numbered u)).length := by simp
  have hg : (run ((List.range 10000).map (fun i => Call.insert (numbered u i)))).get (numbered u 0).id = some (numbered u 0) := by
    rw [(C102_history _ _ h).2.2.1]
    exact ⟨List.mem_map.2 ⟨0, by simp, rfl⟩, rfl⟩
  exact ⟨_, _, h, hl, hg, (C102_full_loses_refresh _ _ h hl { numbered u 0 with state := .terminated } _ hg).1⟩

/-! ## Threads -/

/-- The table and the cleanups under way: each has the identifiers it has collected and not yet removed. -/
structure Shared where
  subs : SubMgr
  cleanups : List (List SubId)

/-- One step of a thread.  `cleanup_terminated` (sip-dialog lib.rs 1718-1731) is a `collect` and then a `drop` for each
identifier; the other calls are one step. -/
inductive Step
  | insert (s : Sub)
  | remove (id : SubId)
  | collect
  | drop (i : Nat)

/-- What the step does. -/
def Shared.step (g : Shared) : Step → Shared
  | .insert s => { g with subs := (g.subs.insert s).2 }
  | .remove id => { g with subs := (g.subs.remove id).2 }
  | .collect => { g with cleanups := g.cleanups ++ [g.subs.terminated] }
  | .drop i =>
    match g.cleanups[i]? with
    | some (id :: ids) => ⟨Tbl.remove g.subs id, g.cleanups.set i ids⟩
    | _ => g

/-- The state after steps of any threads. -/
def Shared.run (steps : List Step) : Shared := steps.foldl Shared.step ⟨[], []⟩

/-- what holds in every state, given that no subscription `id` was inserted terminated -/
structure Keeps (id : SubId) (g : Shared) : Prop where
  ok : SubMgr.Ok g.subs
  cap : g.subs.length ≤ 10000
  live : ∀ s, (id, s) ∈ g.subs → s.state ≠ .terminated
  safe : ∀ ids ∈ g.cleanups, id ∉ ids

theorem insert_length (m : SubMgr) (s : Sub) (h : m.length ≤ 10000) : (m.insert s).2.length ≤ 10000 := by
  unfold SubMgr.insert MAX_SUBSCRIPTIONS
  split
  · exact h
  · have := Tbl.length_insert_le m s.id s
    simp only
    omega

theorem remove_length (m : SubMgr) (id : SubId) (h : m.length ≤ 10000) : (Tbl.remove m id).length ≤ 10000 :=
  Nat.le_trans (Tbl.length_remove_le m id) h

theorem keeps_step {id : SubId} {g : Shared} (h : Keeps id g) (st : Step)
    (hs : ∀ s, st = .insert s → s.id = id → s.state ≠ .terminated) : Keeps id (g.step st) := by
  cases st with
  | insert s =>
    refine ⟨ok_insert h.ok s, insert_length _ _ h.cap, ?_, h.safe⟩
    intro x hx
    simp only [Shared.step, SubMgr.insert] at hx
    split at hx
    · exact h.live x hx
    · rcases List.mem_cons.1 hx with hx | hx
      · cases hx
        exact hs _ rfl rfl
      · exact h.live x (List.mem_filter.1 hx).1
  | remove i =>
    exact ⟨ok_drop h.ok i, remove_length _ _ h.cap, fun s hs => h.live s (List.mem_filter.1 hs).1, h.safe⟩
  | collect =>
    refine ⟨h.ok, h.cap, h.live, ?_⟩
    intro ids hi
    rcases List.mem_append.1 hi with hi | hi
    · exact h.safe ids hi
    · simp only [List.mem_singleton] at hi
      subst hi
      intro hm
      obtain ⟨s, h1, h2⟩ := (mem_terminated id).1 hm
      exact h.live s h1 h2
  | drop i =>
    simp only [Shared.step]
    split
    · rename_i x ids hi
      refine ⟨ok_drop h.ok x, remove_length _ _ h.cap, fun s hs => h.live s (List.mem_filter.1 hs).1, ?_⟩
      intro l hl
      have hm := h.safe _ (List.mem_of_getElem? hi)
      rcases List.mem_or_eq_of_mem_set hl with hl | rfl
      · exact h.safe l hl
      · exact fun hx => hm (List.mem_cons_of_mem _ hx)
    · exact h

theorem keeps_run {id : SubId} : ∀ (steps : List Step) (g : Shared), Keeps id g →
    (∀ s, Step.insert s ∈ steps → s.id = id → s.state ≠ .terminated) → Keeps id (steps.foldl Shared.step g)
  | [], _, h, _ => h
  | st :: steps, g, h, hs =>
    keeps_run steps _ (keeps_step h st (fun s e => hs s (by simp [e]))) (fun s hm => hs s (List.mem_cons_of_mem _ hm))

theorem keeps_init (id : SubId) : Keeps id ⟨[], []⟩ :=
  ⟨⟨List.nodup_nil, by simp⟩, by simp, by simp, by simp⟩

/-- **C102.** With any interleaving of threads there are at most 10 000 subscriptions, each under its own identifier. -/
theorem C102_threads (steps : List Step) :
    (Shared.run steps).subs.length ≤ 10000 ∧ ∀ id s, (Shared.run steps).subs.get id = some s → s.id = id := by
  have base : ∀ (steps : List Step) (g : Shared), SubMgr.Ok g.subs → g.subs.length ≤ 10000 →
      SubMgr.Ok (steps.foldl Shared.step g).subs ∧ (steps.foldl Shared.step g).subs.length ≤ 10000 := by
    intro steps
    induction steps with
    | nil => exact fun g h1 h2 => ⟨h1, h2⟩
    | cons st steps ih =>
      intro g h1 h2
      refine ih _ ?_ ?_
      · cases st with
        | insert s => exact ok_insert h1 s
        | remove i => exact ok_drop h1 i
        | collect => exact h1
        | drop i =>
          simp only [Shared.step]
          split
          · exact ok_drop h1 _
          · exact h1
      · cases st with
        | insert s => exact insert_length _ _ h2
        | remove i => exact remove_length _ _ h2
        | collect => exact h2
        | drop i =>
          simp only [Shared.step]
          split
          · exact remove_length _ _ h2
          · exact h2
  obtain ⟨h1, h2⟩ := base steps ⟨[], []⟩ ⟨List.nodup_nil, by simp⟩ (by simp)
  exact ⟨h2, fun id s hg => h1.own _ (Tbl.mem_of_get _ _ _ hg)⟩

/-- **C102 (partial).** A cleanup running beside other threads does not take a subscription whose identifier has only been
stored with other states than terminated: no step of a cleanup changes what is found under it.  What is missing is the case of
an identifier that was terminated and is stored again: `C102_cleanup_race`. -/
theorem C102_cleanup_partial (steps : List Step) (id : SubId)
    (hs : ∀ s, Step.insert s ∈ steps → s.id = id → s.state ≠ .terminated) (i : Nat) :
    ((Shared.run steps).step (.drop i)).subs.get id = (Shared.run steps).subs.get id := by
  have h : Keeps id (Shared.run steps) := keeps_run steps _ (keeps_init id) hs
  generalize Shared.run steps = g at h
  simp only [Shared.step]
  split
  · rename_i x ids hi
    have hx : id ≠ x := fun e => h.safe _ (List.mem_of_getElem? hi) (by simp [e])
    exact Tbl.get_remove_ne _ hx
  · rfl

/-- a subscription and its end -/
def one (u : SipUri) (st : SState) : Sub := { numbered u 1 with state := st }

/-- **C102.** Counterexample: a subscription that ended and was set up again while a cleanup was under way is removed although it
is active. -/
theorem C102_cleanup_race (u : SipUri) :
    (Shared.run [.insert (one u .terminated), .collect, .insert (one u .active)]).subs.get (one u .active).id = some (one u .active) ∧
    (Shared.run [.insert (one u .terminated), .collect, .insert (one u .active), .drop 0]).subs.get (one u .active).id = none := by
  constructor <;> rfl

/-- a history for the theorems above: three subscriptions, of which one ended and was cleaned up, and one was replaced -/
example (u : SipUri) : ∃ ss, Holds [.insert (numbered u 1), .insert { numbered u 2 with state := .terminated },
      .insert (numbered u 3), .cleanup, .insert { numbered u 1 with expires := 99 }] ss ∧
    ss = [{ numbered u 1 with expires := 99 }, numbered u 3] := by
  refine ⟨_, ?_, rfl⟩
  have h1 := Holds.insert (s := numbered u 1) Holds.nil (by simp)
  have h2 := Holds.insert (s := { numbered u 2 with state := .terminated }) h1 (by simp)
  have h3 := Holds.insert (s := numbered u 3) h2 (by
    refine Nat.lt_of_le_of_lt ?_ (by decide : 5 < 10000)
    simp [numbered])
  have h4 := Holds.cleanup h3
  have h5 := Holds.insert (s := { numbered u 1 with expires := 99 }) h4 (by
    refine Nat.lt_of_le_of_lt (List.length_filter_le _ _) ?_
    refine Nat.lt_of_le_of_lt ?_ (by decide : 5 < 10000)
    simp [numbered])
  exact h5

end Siphon.Sub
