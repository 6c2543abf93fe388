import Verif.Manager.Spec
/-! Proof internals: what each manager function leaves alone. -/

namespace Siphon.Manager
open Siphon.Fsm
set_option linter.unusedSimpArgs false

def pendC (k : Key) (l : List Cmd) : List Cmd := l.filter (fun c => decide (c.clientKey = some k))
def pendS (k : Key) (l : List Cmd) : List Cmd := l.filter (fun c => decide (c.serverKey = some k))

def Mgr.cfg (m : Mgr) : Nat × Nat × Nat × Nat × Nat := (m.maxServer, m.maxClient, m.t1, m.t2, m.t4)

/-- `r` results from `m` by work on client transaction `k` only -/
structure CFrame (k : Key) (m : Mgr) (r : Mgr × List Out) : Prop where
  server : r.1.server = m.server
  other : ∀ k', k' ≠ k → r.1.client.get k' = m.client.get k'
  len : r.1.client.length ≤ m.client.length
  keys : m.client.keys.Nodup → r.1.client.keys.Nodup
  cfg : r.1.cfg = m.cfg
  pend : ∀ k', k' ≠ k → pendC k' r.1.pending = pendC k' m.pending
  pendS : ∀ k', pendS k' r.1.pending = pendS k' m.pending
  outs : ∀ o ∈ r.2, o.clientKey = some k ∧ o.serverKey = none

/-- `r` results from `m` by work on server transaction `k` only -/
structure SFrame (k : Key) (m : Mgr) (r : Mgr × List Out) : Prop where
  client : r.1.client = m.client
  other : ∀ k', k' ≠ k → r.1.server.get k' = m.server.get k'
  len : r.1.server.length ≤ m.server.length
  keys : m.server.keys.Nodup → r.1.server.keys.Nodup
  cfg : r.1.cfg = m.cfg
  pend : ∀ k', k' ≠ k → Manager.pendS k' r.1.pending = Manager.pendS k' m.pending
  pendC : ∀ k', pendC k' r.1.pending = pendC k' m.pending
  outs : ∀ o ∈ r.2, o.serverKey = some k ∧ o.clientKey = none

theorem CFrame.refl (k : Key) (m : Mgr) : CFrame k m (m, []) :=
  ⟨rfl, fun _ _ => rfl, Nat.le_refl _, id, rfl, fun _ _ => rfl, fun _ => rfl, by simp⟩

theorem SFrame.refl (k : Key) (m : Mgr) : SFrame k m (m, []) :=
  ⟨rfl, fun _ _ => rfl, Nat.le_refl _, id, rfl, fun _ _ => rfl, fun _ => rfl, by simp⟩

theorem CFrame.trans {k : Key} {m : Mgr} {r : Mgr × List Out} {f : Mgr → Mgr × List Out}
    (h : CFrame k m r) (h' : CFrame k r.1 (f r.1)) : CFrame k m (andThen r f) where
  server := h'.server.trans h.server
  other k' hk := (h'.other k' hk).trans (h.other k' hk)
  len := Nat.le_trans h'.len h.len
  keys := fun x => h'.keys (h.keys x)
  cfg := h'.cfg.trans h.cfg
  pend k' hk := (h'.pend k' hk).trans (h.pend k' hk)
  pendS k' := (h'.pendS k').trans (h.pendS k')
  outs := by
    intro o ho
    simp only [andThen, List.mem_append] at ho
    rcases ho with ho | ho
    · exact h.outs o ho
    · exact h'.outs o ho

theorem SFrame.trans {k : Key} {m : Mgr} {r : Mgr × List Out} {f : Mgr → Mgr × List Out}
    (h : SFrame k m r) (h' : SFrame k r.1 (f r.1)) : SFrame k m (andThen r f) where
  client := h'.client.trans h.client
  other k' hk := (h'.other k' hk).trans (h.other k' hk)
  len := Nat.le_trans h'.len h.len
  keys := fun x => h'.keys (h.keys x)
  cfg := h'.cfg.trans h.cfg
  pend k' hk := (h'.pend k' hk).trans (h.pend k' hk)
  pendC k' := (h'.pendC k').trans (h.pendC k')
  outs := by
    intro o ho
    simp only [andThen, List.mem_append] at ho
    rcases ho with ho | ho
    · exact h.outs o ho
    · exact h'.outs o ho

/-- state-only variant of `trans`, with effects of the second part only -/
theorem CFrame.after {k : Key} {m m' : Mgr} {r : Mgr × List Out}
    (h : CFrame k m (m', [])) (h' : CFrame k m' r) : CFrame k m r := by
  have := CFrame.trans (f := fun _ => r) h h'
  simpa [andThen] using this

theorem SFrame.after {k : Key} {m m' : Mgr} {r : Mgr × List Out}
    (h : SFrame k m (m', [])) (h' : SFrame k m' r) : SFrame k m r := by
  have := SFrame.trans (f := fun _ => r) h h'
  simpa [andThen] using this

theorem pendC_append_other (k' : Key) (l : List Cmd) (c : Cmd) (h : c.clientKey ≠ some k') :
    pendC k' (l ++ [c]) = pendC k' l := by
  simp [pendC, h]

theorem pendS_append_other (k' : Key) (l : List Cmd) (c : Cmd) (h : c.serverKey ≠ some k') :
    pendS k' (l ++ [c]) = pendS k' l := by
  simp [pendS, h]

theorem cframe_update (k : Key) (m : Mgr) (f : CEntry → CEntry) :
    CFrame k m ({ m with client := m.client.update k f }, []) :=
  ⟨rfl, fun _ hk => Tbl.get_update_ne _ _ hk, by simp, by simp [Tbl.keys_update], rfl,
    fun _ _ => rfl, fun _ => rfl, by simp⟩

theorem sframe_update (k : Key) (m : Mgr) (f : SEntry → SEntry) :
    SFrame k m ({ m with server := m.server.update k f }, []) :=
  ⟨rfl, fun _ hk => Tbl.get_update_ne _ _ hk, by simp, by simp [Tbl.keys_update], rfl,
    fun _ _ => rfl, fun _ => rfl, by simp⟩

theorem cframe_remove (k : Key) (m : Mgr) :
    CFrame k m ({ m with client := m.client.remove k }, []) :=
  ⟨rfl, fun _ hk => Tbl.get_remove_ne _ hk, Tbl.length_remove_le _ _, Tbl.nodup_remove _ _, rfl,
    fun _ _ => rfl, fun _ => rfl, by simp⟩

theorem sframe_remove (k : Key) (m : Mgr) :
    SFrame k m ({ m with server := m.server.remove k }, []) :=
  ⟨rfl, fun _ hk => Tbl.get_remove_ne _ hk, Tbl.length_remove_le _ _, Tbl.nodup_remove _ _, rfl,
    fun _ _ => rfl, fun _ => rfl, by simp⟩

theorem CFrame.emit {k : Key} {m : Mgr} {r : Mgr × List Out} (h : CFrame k m r) (os : List Out)
    (ho : ∀ o ∈ os, o.clientKey = some k ∧ o.serverKey = none) : CFrame k m (r.1, os) :=
  ⟨h.server, h.other, h.len, h.keys, h.cfg, h.pend, h.pendS, ho⟩

theorem SFrame.emit {k : Key} {m : Mgr} {r : Mgr × List Out} (h : SFrame k m r) (os : List Out)
    (ho : ∀ o ∈ os, o.serverKey = some k ∧ o.clientKey = none) : SFrame k m (r.1, os) :=
  ⟨h.client, h.other, h.len, h.keys, h.cfg, h.pend, h.pendC, ho⟩

theorem cframe_pend (k : Key) (m : Mgr) (n : Nat) (c : Cmd) (hc : c.clientKey = some k)
    (hs : c.serverKey = none) :
    CFrame k m ({ m with pending := m.pending ++ [c], sends := n }, []) :=
  ⟨rfl, fun _ _ => rfl, Nat.le_refl _, id, rfl,
    fun k' hk => pendC_append_other k' _ _ (by rw [hc]; simpa using Ne.symm hk),
    fun k' => pendS_append_other k' _ _ (by rw [hs]; simp), by simp⟩

theorem cframe_sends (k : Key) (m : Mgr) (n : Nat) : CFrame k m ({ m with sends := n }, []) :=
  ⟨rfl, fun _ _ => rfl, Nat.le_refl _, id, rfl, fun _ _ => rfl, fun _ => rfl, by simp⟩

theorem sframe_pend (k : Key) (m : Mgr) (n : Nat) (c : Cmd) (hc : c.serverKey = some k)
    (hs : c.clientKey = none) :
    SFrame k m ({ m with pending := m.pending ++ [c], sends := n }, []) :=
  ⟨rfl, fun _ _ => rfl, Nat.le_refl _, id, rfl,
    fun k' hk => pendS_append_other k' _ _ (by rw [hc]; simpa using Ne.symm hk),
    fun k' => pendC_append_other k' _ _ (by rw [hs]; simp), by simp⟩

theorem sframe_sends (k : Key) (m : Mgr) (n : Nat) : SFrame k m ({ m with sends := n }, []) :=
  ⟨rfl, fun _ _ => rfl, Nat.le_refl _, id, rfl, fun _ _ => rfl, fun _ => rfl, by simp⟩

theorem cframe_dispatch (net : Nat → Bool) (k : Key) (b : Bytes) (m : Mgr) :
    CFrame k m (m.dispatchWithFailover net k b) := by
  unfold Mgr.dispatchWithFailover
  cases h : m.client.get k with
  | none => exact CFrame.refl k m
  | some e =>
    simp only
    generalize failover net m.sends e.ctx e.remaining = r
    obtain ⟨ok, c, rem, as⟩ := r
    have ho : ∀ o ∈ as.map (fun a => Out.attempt k a.1 b a.2),
        o.clientKey = some k ∧ o.serverKey = none := by
      intro o ho
      simp only [List.mem_map] at ho
      obtain ⟨a, _, rfl⟩ := ho
      exact ⟨rfl, rfl⟩
    cases ok with
    | true =>
      simp only [if_true]
      exact CFrame.emit (CFrame.after (cframe_update k m
        (fun e => { e with ctx := c, remaining := rem })) (cframe_sends k _ (m.sends + as.length))) _ ho
    | false =>
      simp only [Bool.false_eq_true, if_false]
      exact CFrame.emit (CFrame.after (cframe_update k m
        (fun e => { e with ctx := c, remaining := rem }))
        (cframe_pend k _ (m.sends + as.length) (.clientError k) rfl rfl)) _ ho

theorem cframe_schedule (k : Key) (t : Timer) (d : Nat) (m : Mgr) :
    CFrame k m (m.scheduleClient k t d, []) := by
  unfold Mgr.scheduleClient
  cases h : m.client.get k with
  | none => exact CFrame.refl k m
  | some e =>
    simp only
    split
    · exact CFrame.after (cframe_update k m (fun e => { e with timers := e.timers.filter (· ≠ t) }))
        (cframe_pend k _ m.sends (.clientTimer k t) rfl rfl)
    · exact cframe_update k m _

theorem sframe_schedule (k : Key) (t : Timer) (d : Nat) (m : Mgr) :
    SFrame k m (m.scheduleServer k t d, []) := by
  unfold Mgr.scheduleServer
  cases h : m.server.get k with
  | none => exact SFrame.refl k m
  | some e =>
    simp only
    split
    · exact SFrame.after (sframe_update k m (fun e => { e with timers := e.timers.filter (· ≠ t) }))
        (sframe_pend k _ m.sends (.serverTimer k t) rfl rfl)
    · exact sframe_update k m _

theorem sframe_apply1 (net : Nat → Bool) (k : Key) (a : SAction) (m : Mgr) :
    SFrame k m (m.applyServer1 net k a) := by
  cases a with
  | transmit b =>
    simp only [Mgr.applyServer1]
    cases h : m.server.get k with
    | none => exact SFrame.refl k m
    | some e =>
      simp only
      cases net m.sends with
      | true =>
        simp only [if_true]
        exact SFrame.emit (sframe_sends k m _) _ (by simp [Out.serverKey, Out.clientKey])
      | false =>
        simp only [Bool.false_eq_true, if_false]
        exact SFrame.emit (sframe_pend k m _ (.serverError k) rfl rfl) _
          (by simp [Out.serverKey, Out.clientKey])
  | schedule t d => exact sframe_schedule k t d m
  | cancel t => exact sframe_update k m _
  | terminate w => exact sframe_remove k m

theorem sframe_apply (net : Nat → Bool) (k : Key) (as : List SAction) (m : Mgr) :
    SFrame k m (m.applyServer net k as) := by
  induction as generalizing m with
  | nil => exact SFrame.refl k m
  | cons a as ih => exact (sframe_apply1 net k a m).trans (ih _)

theorem cframe_applyCI1 (net : Nat → Bool) (k : Key) (a : CIAction) (m : Mgr) :
    CFrame k m (m.applyCI1 net k a) := by
  cases a with
  | transmit b => exact cframe_dispatch net k b m
  | deliver r =>
    apply CFrame.emit (CFrame.refl k m)
    simp only [Mgr.deliver]
    split
    · simp
    · split <;> simp [Out.serverKey, Out.clientKey]
  | expectPrack r =>
    simp only [Mgr.applyCI1]
    split
    · exact CFrame.refl k m
    · exact CFrame.emit (CFrame.refl k m) _ (by simp [Out.serverKey, Out.clientKey])
  | generateAck r two =>
    simp only [Mgr.applyCI1]
    split
    · exact CFrame.refl k m
    · exact CFrame.emit (CFrame.refl k m) _ (by simp [Out.serverKey, Out.clientKey])
  | schedule t d => exact cframe_schedule k t d m
  | cancel t => exact cframe_update k m _
  | terminate w =>
    simp only [Mgr.applyCI1]
    split
    · exact cframe_remove k m
    · exact CFrame.emit (cframe_remove k m) _ (by simp [Out.serverKey, Out.clientKey])

theorem cframe_applyCI (net : Nat → Bool) (k : Key) (as : List CIAction) (m : Mgr) :
    CFrame k m (m.applyCI net k as) := by
  induction as generalizing m with
  | nil => exact CFrame.refl k m
  | cons a as ih => exact (cframe_applyCI1 net k a m).trans (ih _)

theorem cframe_applyCN1 (net : Nat → Bool) (k : Key) (a : CNAction) (m : Mgr) :
    CFrame k m (m.applyCN1 net k a) := by
  cases a with
  | transmit b => exact cframe_dispatch net k b m
  | deliver r =>
    apply CFrame.emit (CFrame.refl k m)
    simp only [Mgr.deliver]
    split
    · simp
    · split <;> simp [Out.serverKey, Out.clientKey]
  | schedule t d => exact cframe_schedule k t d m
  | cancel t => exact cframe_update k m _
  | terminate w =>
    simp only [Mgr.applyCN1]
    split
    · exact CFrame.refl k m
    · exact CFrame.emit (cframe_remove k m) _ (by simp [Out.serverKey, Out.clientKey])

theorem cframe_applyCN (net : Nat → Bool) (k : Key) (as : List CNAction) (m : Mgr) :
    CFrame k m (m.applyCN net k as) := by
  induction as generalizing m with
  | nil => exact CFrame.refl k m
  | cons a as ih => exact (cframe_applyCN1 net k a m).trans (ih _)

theorem cframe_reap (k : Key) (m : Mgr) : CFrame k m (m.reap k, []) := by
  unfold Mgr.reap
  split
  · exact CFrame.refl k m
  · split
    · exact cframe_remove k m
    · exact CFrame.refl k m

theorem cframe_applyClient (net : Nat → Bool) (k : Key) (as : CActs) (m : Mgr) :
    CFrame k m (m.applyClient net k as) := by
  cases as with
  | invite as =>
    have := (cframe_applyCI net k as m).trans (f := fun m => (m.reap k, [])) (cframe_reap k _)
    simpa [Mgr.applyClient, andThen] using this
  | nonInvite as =>
    have := (cframe_applyCN net k as m).trans (f := fun m => (m.reap k, [])) (cframe_reap k _)
    simpa [Mgr.applyClient, andThen] using this

theorem sframe_feed (net : Nat → Bool) (k : Key) (ev : SEv) (m : Mgr) :
    SFrame k m (m.feedServer net k ev) := by
  unfold Mgr.feedServer Mgr.stepServer
  cases h : m.server.get k with
  | none => exact SFrame.refl k m
  | some e => exact SFrame.after (sframe_update k m _) (sframe_apply net k _ _)

theorem cframe_response (net : Nat → Bool) (k : Key) (r : Resp) (m : Mgr) :
    CFrame k m (m.dispatchResponse net k r) := by
  unfold Mgr.dispatchResponse Mgr.stepClient
  cases h : m.client.get k with
  | none => exact CFrame.refl k m
  | some e => exact CFrame.after (cframe_update k m _) (cframe_applyClient net k _ _)

theorem cframe_stepClient (k : Key) (ev : CEv) (m m' : Mgr) (e : CEntry) (as : CActs)
    (h : m.stepClient k ev = some (m', e, as)) : CFrame k m (m', []) := by
  unfold Mgr.stepClient at h
  split at h
  · simp at h
  · simp only [Option.some.injEq, Prod.mk.injEq] at h
    obtain ⟨rfl, _⟩ := h
    exact cframe_update k m _

theorem cframe_timer (net : Nat → Bool) (k : Key) (t : Timer) (m : Mgr) :
    CFrame k m (m.handleClientTimer net k t) := by
  unfold Mgr.handleClientTimer
  split
  · exact CFrame.refl k m
  · rename_i m' e as h
    exact CFrame.after (CFrame.after (cframe_update k m _) (cframe_stepClient k _ _ _ _ _ h))
      (cframe_applyClient net k _ _)

theorem cframe_error (net : Nat → Bool) (k : Key) (m : Mgr) :
    CFrame k m (m.processClientError net k) := by
  unfold Mgr.processClientError Mgr.stepClient
  cases h : m.client.get k with
  | none => exact CFrame.refl k m
  | some e =>
    simp only
    have := CFrame.after (cframe_update k m (fun e' => { e' with kind := (e.kind.feed .transportError).1 }))
      (cframe_applyClient net k (e.kind.feed .transportError).2 _)
    refine CFrame.emit this _ ?_
    intro o ho
    rcases List.mem_cons.mp ho with rfl | ho
    · exact ⟨rfl, rfl⟩
    · exact this.outs o ho

theorem sframe_timer (net : Nat → Bool) (k : Key) (t : Timer) (m : Mgr) :
    SFrame k m (m.handleServerTimer net k t) :=
  SFrame.after (sframe_update k m _) (sframe_feed net k _ _)

/-! ## Operations as work on one transaction -/

/-- `launch` only touches its own key, apart from possibly adding one entry -/
theorem launch_frame (net : Nat → Bool) (k : Key) (b : Bytes) (c : Ctx) (rem : List Ctx) (tu now : Nat)
    (m : Mgr) : ∃ e, CFrame k { m with client := m.client.insert k e } (m.launch net k b c rem tu now) := by
  unfold Mgr.launch
  simp only
  split
  · exact ⟨_, cframe_applyClient net k _ _⟩
  · exact ⟨_, cframe_applyClient net k _ _⟩

theorem create_frame (net : Nat → Bool) (k : Key) (c : Ctx) (now : Nat) (m : Mgr) :
    ∃ e, SFrame k { m.enforceServer with server := m.enforceServer.server.insert k e }
      (m.createServer net k c now) := by
  unfold Mgr.createServer
  exact ⟨_, sframe_apply net k _ _⟩

theorem oldest_mem {V : Type} (start : V → Nat) (t : Tbl Key V) (k : Key) (s : Nat)
    (h : oldest start t = some (k, s)) : ∃ v, (k, v) ∈ t ∧ start v = s := by
  induction t generalizing k s with
  | nil => simp [oldest] at h
  | cons p t ih =>
    obtain ⟨k', v⟩ := p
    simp only [oldest] at h
    cases ho : oldest start t with
    | none => simp only [ho] at h; cases h; exact ⟨v, by simp, rfl⟩
    | some q =>
      obtain ⟨k'', s''⟩ := q
      simp only [ho] at h
      split at h
      · cases h; exact ⟨v, by simp, rfl⟩
      · cases h
        obtain ⟨v', hv', hs⟩ := ih _ _ ho
        exact ⟨v', List.mem_cons_of_mem _ hv', hs⟩

theorem oldest_le {V : Type} (start : V → Nat) (t : Tbl Key V) (k : Key) (s : Nat)
    (h : oldest start t = some (k, s)) : ∀ p ∈ t, s ≤ start p.2 := by
  induction t generalizing k s with
  | nil => simp [oldest] at h
  | cons p t ih =>
    obtain ⟨k', v⟩ := p
    simp only [oldest] at h
    cases ho : oldest start t with
    | none =>
      simp only [ho] at h; cases h
      intro q hq
      cases t with
      | nil => simp at hq; subst hq; exact Nat.le_refl _
      | cons a t =>
        exfalso
        obtain ⟨ka, va⟩ := a
        simp only [oldest] at ho
        split at ho
        · simp at ho
        · split at ho <;> simp at ho
    | some q =>
      obtain ⟨k'', s''⟩ := q
      simp only [ho] at h
      have hle := ih _ _ ho
      intro x hx
      split at h
      · cases h
        rcases List.mem_cons.mp hx with rfl | hx
        · exact Nat.le_refl _
        · have := hle x hx; omega
      · cases h
        rcases List.mem_cons.mp hx with rfl | hx
        · simp only; omega
        · exact hle x hx

theorem oldest_ne_none {V : Type} (start : V → Nat) (t : Tbl Key V) (h : 0 < t.length) :
    ∃ k s, oldest start t = some (k, s) := by
  cases t with
  | nil => simp at h
  | cons p t =>
    obtain ⟨k', v⟩ := p
    simp only [oldest]
    cases oldest start t with
    | none => exact ⟨_, _, rfl⟩
    | some q =>
      obtain ⟨k'', s''⟩ := q
      simp only
      split
      · exact ⟨_, _, rfl⟩
      · exact ⟨_, _, rfl⟩

/-- the two ways `enforceClient` can go -/
theorem enforceClient_cases (m : Mgr) :
    m.enforceClient = (m, []) ∨
    ∃ k e, m.client.get k = some e ∧
      m.enforceClient = ({ m with client := m.client.remove k },
        [.terminated e.tu k "resource limit exceeded"]) := by
  unfold Mgr.enforceClient
  split
  · cases h : oldest CEntry.start m.client with
    | none => exact Or.inl rfl
    | some q =>
      obtain ⟨k, s⟩ := q
      simp only
      cases hg : m.client.get k with
      | none => exact Or.inl rfl
      | some e => exact Or.inr ⟨k, e, hg, rfl⟩
  · exact Or.inl rfl

theorem enforceServer_cases (m : Mgr) :
    m.enforceServer = m ∨
    ∃ k, m.enforceServer = { m with server := m.server.remove k } := by
  unfold Mgr.enforceServer
  split
  · cases h : oldest SEntry.start m.server with
    | none => exact Or.inl rfl
    | some q => exact Or.inr ⟨q.1, rfl⟩
  · exact Or.inl rfl

/-- Induction over the life of one client transaction: an assertion about the entry of `k`, its
queued commands and the effects so far is preserved by every operation if it is preserved by the
operations that concern `k`. -/
theorem step_client (net : Nat → Bool) (k : Key) (P : Mgr → List Out → Prop) (mayStart : Prop)
    (frame : ∀ m m' outs o, m'.client.get k = m.client.get k → m'.cfg = m.cfg →
      pendC k m'.pending = pendC k m.pending → (∀ x ∈ o, x.clientKey ≠ some k) → P m outs →
      P m' (outs ++ o))
    (evict : ∀ m outs e, m.client.get k = some e → P m outs →
      P { m with client := m.client.remove k }
        (outs ++ [.terminated e.tu k "resource limit exceeded"]))
    (resp : ∀ m outs r, P m outs →
      P (m.dispatchResponse net k r).1 (outs ++ (m.dispatchResponse net k r).2))
    (timer : ∀ m outs t, P m outs →
      P (m.handleClientTimer net k t).1 (outs ++ (m.handleClientTimer net k t).2))
    (qtimer : ∀ m outs t cs, m.pending = .clientTimer k t :: cs → P m outs →
      P (Mgr.handleClientTimer net k t { m with pending := cs }).1
        (outs ++ (Mgr.handleClientTimer net k t { m with pending := cs }).2))
    (qerror : ∀ m outs cs, m.pending = .clientError k :: cs → P m outs →
      P (Mgr.processClientError net k { m with pending := cs }).1
        (outs ++ (Mgr.processClientError net k { m with pending := cs }).2))
    (start : ∀ m outs b c rem tu now, mayStart → k.isServer = false → P m outs →
      P (m.launch net k b c rem tu now).1 (outs ++ (m.launch net k b c rem tu now).2))
    (m : Mgr) (outs : List Out) (op : Op) (hop : op.starts k → mayStart) (hP : P m outs) :
    P (step net m op).1 (outs ++ (step net m op).2) := by
  have cf : ∀ (k' : Key) (m : Mgr) (outs : List Out) (r : Mgr × List Out), k' ≠ k → CFrame k' m r →
      P m outs → P r.1 (outs ++ r.2) := by
    intro k' m outs r hk h hP
    refine frame m r.1 outs r.2 (h.other k (Ne.symm hk)) h.cfg (h.pend k (Ne.symm hk)) ?_ hP
    intro x hx
    rw [(h.outs x hx).1]
    simpa using hk
  have sf : ∀ (k' : Key) (m : Mgr) (outs : List Out) (r : Mgr × List Out), SFrame k' m r →
      P m outs → P r.1 (outs ++ r.2) := by
    intro k' m outs r h hP
    refine frame m r.1 outs r.2 (by rw [h.client]) h.cfg (h.pendC k) ?_ hP
    intro x hx
    rw [(h.outs x hx).2]
    simp
  cases op with
  | request method via fresh c now =>
    simp only [step, Mgr.receiveRequest]
    split
    · exact sf _ m outs _ (sframe_feed net _ _ m) hP
    · split
      · exact sf _ m outs _ (sframe_feed net _ _ m) hP
      · have create : ∀ (m : Mgr) (outs : List Out), P m outs → ∀ k',
            P (m.createServer net k' c now).1 (outs ++ (m.createServer net k' c now).2) := by
          intro m outs hP k'
          obtain ⟨e, he⟩ := create_frame net k' c now m
          refine sf k' _ outs _ he ?_
          have := frame m { m.enforceServer with server := m.enforceServer.server.insert k' e } outs []
            ?_ ?_ ?_ (by simp) hP
          · simpa using this
          all_goals
            rcases enforceServer_cases m with h | ⟨k'', h⟩ <;> rw [h] <;> rfl
        simp only [andThen]
        rw [← List.append_assoc]
        apply create
        split
        · exact sf _ m outs _ (sframe_feed net _ _ m) hP
        · simpa using hP
  | start method via b targets tu now =>
    simp only [step, Mgr.startClient]
    split
    · rename_i c rem branch hb
      simp only [andThen]
      rw [← List.append_assoc]
      have hen : P m.enforceClient.1 (outs ++ m.enforceClient.2) := by
        rcases enforceClient_cases m with h | ⟨k', e, hg, h⟩
        · rw [h]; simpa using hP
        · rw [h]
          by_cases hk : k' = k
          · subst hk; exact evict m outs e hg hP
          · exact cf k' m outs _ hk
              (CFrame.emit (cframe_remove k' m) _ (by simp [Out.clientKey, Out.serverKey])) hP
      generalize m.enforceClient.1 = m1 at *
      generalize outs ++ m.enforceClient.2 = outs1 at *
      by_cases hk : (⟨branch, method, false⟩ : Key) = k
      · subst hk
        exact start m1 outs1 b c rem tu now (hop ⟨by simp, rfl, rfl, hb⟩) rfl hen
      · obtain ⟨e, he⟩ := launch_frame net ⟨branch, method, false⟩ b c rem tu now m1
        refine cf _ _ outs1 _ hk he ?_
        have := frame m1 { m1 with client := m1.client.insert ⟨branch, method, false⟩ e } outs1 []
          (Tbl.get_insert_ne _ _ (Ne.symm hk)) rfl rfl (by simp) hen
        simpa using this
    · simpa using hP
  | response via cseq r =>
    simp only [step, Mgr.receiveResponse]
    split
    · rename_i branch method hb hm
      by_cases hk : (⟨branch, method, false⟩ : Key) = k
      · subst hk; exact resp m outs r hP
      · exact cf _ m outs _ hk (cframe_response net _ r m) hP
    · simpa using hP
  | serverTimer k' t => exact sf k' m outs _ (sframe_timer net k' t m) hP
  | clientTimer k' t =>
    by_cases hk : k' = k
    · subst hk; exact timer m outs t hP
    · exact cf k' m outs _ hk (cframe_timer net k' t m) hP
  | command =>
    simp only [step, Mgr.command]
    cases hp : m.pending with
    | nil => simpa using hP
    | cons c cs =>
      simp only
      have popped : ∀ c, c.clientKey ≠ some k → m.pending = c :: cs →
          P { m with pending := cs } outs := by
        intro c hc hp
        have := frame m { m with pending := cs } outs [] rfl rfl ?_ (by simp) hP
        · simpa using this
        · simp [hp, pendC, hc]
      cases c with
      | serverTimer k' t =>
        exact sf k' _ outs _ (sframe_timer net k' t _) (popped _ (by simp [Cmd.clientKey]) hp)
      | clientTimer k' t =>
        by_cases hk : k' = k
        · subst hk; exact qtimer m outs t cs hp hP
        · exact cf k' _ outs _ hk (cframe_timer net k' t _)
            (popped _ (by simpa [Cmd.clientKey] using hk) hp)
      | clientError k' =>
        by_cases hk : k' = k
        · subst hk; exact qerror m outs cs hp hP
        · exact cf k' _ outs _ hk (cframe_error net k' _)
            (popped _ (by simpa [Cmd.clientKey] using hk) hp)
      | serverError k' =>
        exact sf k' _ outs _ (sframe_feed net k' _ _) (popped _ (by simp [Cmd.clientKey]) hp)
  | sendProvisional k' r => exact sf k' m outs _ (sframe_feed net k' _ m) hP
  | sendFinal k' r => exact sf k' m outs _ (sframe_feed net k' _ m) hP
  | ack k' =>
    simp only [step, Mgr.ackReceived]
    split
    · exact sf k' m outs _ (sframe_feed net k' _ m) hP
    · simpa using hP

theorem runOps_inv (net : Nat → Bool) (P : Mgr → List Out → Prop) (Q : Op → Prop)
    (h : ∀ m outs op, Q op → P m outs → P (step net m op).1 (outs ++ (step net m op).2))
    (m : Mgr) (outs : List Out) (ops : List Op) (hq : ∀ op ∈ ops, Q op) (hP : P m outs) :
    P (runOps net m ops).1 (outs ++ (runOps net m ops).2) := by
  induction ops generalizing m outs with
  | nil => simpa [runOps] using hP
  | cons op ops ih =>
    simp only [runOps, andThen]
    rw [← List.append_assoc]
    exact ih _ _ (fun o ho => hq o (by simp [ho])) (h m outs op (hq op (by simp)) hP)

theorem runOps_append (net : Nat → Bool) (m : Mgr) (a b : List Op) :
    runOps net m (a ++ b) =
      ((runOps net (runOps net m a).1 b).1, (runOps net m a).2 ++ (runOps net (runOps net m a).1 b).2) := by
  induction a generalizing m with
  | nil => simp [runOps]
  | cons op a ih => simp [runOps, andThen, ih]

end Siphon.Manager
