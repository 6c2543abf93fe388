import Verif.Manager.LemmasLive
/-! Proof internals for C13. -/

namespace Siphon.Manager
open Siphon.Fsm
set_option linter.unusedSimpArgs false

/-- the targets still usable (current one first) after some attempts -/
def after : List Ctx → List (Ctx × Bool) → List Ctx
  | ts, [] => ts
  | _ :: c' :: cs, (_, false) :: as => after (c' :: cs) as
  | ts, _ :: as => after ts as

def fails (as : List (Ctx × Bool)) : Nat := (as.filter (fun a => !a.2)).length

theorem fails_append (a b : List (Ctx × Bool)) : fails (a ++ b) = fails a + fails b := by
  simp [fails]

theorem after_append (ts : List Ctx) (a b : List (Ctx × Bool)) :
    after ts (a ++ b) = after (after ts a) b := by
  induction a generalizing ts with
  | nil => cases ts <;> rfl
  | cons x xs ih =>
    obtain ⟨d, ok⟩ := x
    rcases ts with _ | ⟨c, _ | ⟨c', cs⟩⟩ <;> cases ok <;> simp [after, ih]

theorem legal_append (ts : List Ctx) (a b : List (Ctx × Bool)) :
    Legal ts (a ++ b) ↔ Legal ts a ∧ Legal (after ts a) b := by
  induction a generalizing ts with
  | nil => cases ts <;> simp [Legal, after]
  | cons x xs ih =>
    obtain ⟨d, ok⟩ := x
    rcases ts with _ | ⟨c, _ | ⟨c', cs⟩⟩
    · simp [Legal]
    · cases ok <;> simp [Legal, after, ih, and_assoc]
    · cases ok <;> simp [Legal, after, ih, and_assoc]

theorem failover_spec (net : Nat → Bool) (rem : List Ctx) (n : Nat) (c : Ctx) :
    let r := failover net n c rem
    Legal (c :: rem) r.2.2.2 ∧ after (c :: rem) r.2.2.2 = r.2.1 :: r.2.2.1 ∧
    (r.1 = true → fails r.2.2.2 + (r.2.2.1.length + 1) = rem.length + 1) ∧
    (r.1 = false → fails r.2.2.2 = rem.length + 1) := by
  induction rem generalizing n c with
  | nil =>
    simp only [failover]
    split <;> simp [Legal, after, fails]
  | cons d ds ih =>
    simp only [failover]
    split
    · simp [Legal, after, fails]
    · obtain ⟨h1, h2, h3, h4⟩ := ih (n + 1) d
      refine ⟨by simp [Legal, h1], by simp [after, h2], ?_, ?_⟩
      · intro h
        have := h3 h
        simp [fails] at this ⊢
        omega
      · intro h
        have := h4 h
        simp [fails] at this ⊢
        omega

theorem after_length (ts : List Ctx) (as : List (Ctx × Bool)) :
    ts.length ≤ fails as + (after ts as).length := by
  induction as generalizing ts with
  | nil => cases ts <;> simp [after]
  | cons x xs ih =>
    obtain ⟨d, ok⟩ := x
    rcases ts with _ | ⟨c, _ | ⟨c', cs⟩⟩
    · simp
    · have := ih [c]
      cases ok <;> simp [after, fails] at this ⊢ <;> omega
    · cases ok
      · have := ih (c' :: cs)
        simp [after, fails] at this ⊢; omega
      · have := ih (c :: c' :: cs)
        simp [after, fails] at this ⊢; omega

/-- if as many sends failed as there are targets, each target has failed -/
theorem all_failed (ts : List Ctx) (as : List (Ctx × Bool)) (hl : Legal ts as)
    (hf : ts.length ≤ fails as) : ∀ t ∈ ts, (t, false) ∈ as := by
  induction as generalizing ts with
  | nil => cases ts <;> simp [fails] at hf ⊢
  | cons x xs ih =>
    obtain ⟨d, ok⟩ := x
    rcases ts with _ | ⟨c, _ | ⟨c', cs⟩⟩
    · simp
    · obtain ⟨rfl, hl⟩ := hl
      cases ok
      · simp
      · intro t ht
        exact List.mem_cons_of_mem _ (ih [d] hl (by simpa [fails] using hf) t ht)
    · obtain ⟨rfl, hl⟩ := hl
      cases ok
      · simp only [Bool.false_eq_true, if_false] at hl
        have := ih (c' :: cs) hl (by simpa [fails] using hf)
        intro t ht
        rcases List.mem_cons.mp ht with rfl | ht
        · simp
        · exact List.mem_cons_of_mem _ (this t ht)
      · simp only [if_true] at hl
        intro t ht
        exact List.mem_cons_of_mem _ (ih _ hl (by simpa [fails] using hf) t ht)

structure Inv13 (k : Key) (ts : List Ctx) (m : Mgr) (outs : List Out) : Prop where
  legal : Legal ts (attemptsOf k outs)
  cur : ∀ e, m.client.get k = some e → after ts (attemptsOf k outs) = e.ctx :: e.remaining
  queued : Cmd.clientError k ∈ m.pending → ts.length ≤ fails (attemptsOf k outs)
  told : 0 < errorsOf k outs → ts.length ≤ fails (attemptsOf k outs) ∧ m.client.get k = none
  once : errorsOf k outs ≤ 1
  notYet : Cmd.clientError k ∈ m.pending ∨ m.client.get k = none ∨
    fails (attemptsOf k outs) + (after ts (attemptsOf k outs)).length = ts.length

theorem Inv13.frame {k : Key} {ts : List Ctx} {m m' : Mgr} {outs : List Out} (o : List Out)
    (h : Inv13 k ts m outs)
    (he : ∀ e', m'.client.get k = some e' →
      ∃ e, m.client.get k = some e ∧ e.ctx = e'.ctx ∧ e.remaining = e'.remaining)
    (hp : Cmd.clientError k ∈ m'.pending ↔ Cmd.clientError k ∈ m.pending)
    (ha : attemptsOf k o = []) (hr : errorsOf k o = 0) : Inv13 k ts m' (outs ++ o) := by
  have hA : attemptsOf k (outs ++ o) = attemptsOf k outs := by rw [attemptsOf_append, ha]; simp
  have hE : errorsOf k (outs ++ o) = errorsOf k outs := by rw [errorsOf_append, hr]; simp
  have hn : m.client.get k = none → m'.client.get k = none := by
    intro hn
    cases hg : m'.client.get k with
    | none => rfl
    | some e' => obtain ⟨e, h1, _⟩ := he e' hg; rw [hn] at h1; simp at h1
  constructor
  · rw [hA]; exact h.legal
  · intro e' he'
    obtain ⟨e, h1, h2, h3⟩ := he e' he'
    rw [hA, h.cur e h1, h2, h3]
  · rw [hA, hp]; exact h.queued
  · rw [hA, hE]; intro x; exact ⟨(h.told x).1, hn (h.told x).2⟩
  · rw [hE]; exact h.once
  · rw [hA, hp]
    rcases h.notYet with h | h | h
    · exact Or.inl h
    · exact Or.inr (Or.inl (hn h))
    · exact Or.inr (Or.inr h)

theorem attemptsOf_map (k : Key) (b : Bytes) (as : List (Ctx × Bool)) :
    attemptsOf k (as.map (fun a => .attempt k a.1 b a.2)) = as := by
  induction as with
  | nil => rfl
  | cons a as ih => simp [attemptsOf, ih]

theorem errorsOf_map (k : Key) (b : Bytes) (as : List (Ctx × Bool)) :
    errorsOf k (as.map (fun a => .attempt k a.1 b a.2)) = 0 := by
  induction as with
  | nil => rfl
  | cons a as ih => simp [errorsOf, ih]

theorem inv13_dispatch (net : Nat → Bool) (k : Key) (ts : List Ctx) (b : Bytes) (m : Mgr)
    (outs : List Out) (h : Inv13 k ts m outs) :
    Inv13 k ts (m.dispatchWithFailover net k b).1 (outs ++ (m.dispatchWithFailover net k b).2) := by
  unfold Mgr.dispatchWithFailover
  cases hg : m.client.get k with
  | none => simpa using h
  | some e =>
    simp only
    have hf := failover_spec net e.remaining m.sends e.ctx
    generalize failover net m.sends e.ctx e.remaining = r at hf
    obtain ⟨ok, c, rem, as⟩ := r
    obtain ⟨h1, h2, h3, h4⟩ := hf
    simp only at h1 h2 h3 h4 ⊢
    have hcur := h.cur e hg
    have hA : attemptsOf k (outs ++ as.map (fun a => Out.attempt k a.1 b a.2)) =
        attemptsOf k outs ++ as := by rw [attemptsOf_append, attemptsOf_map]
    have hE : errorsOf k (outs ++ as.map (fun a => Out.attempt k a.1 b a.2)) = errorsOf k outs := by
      rw [errorsOf_append, errorsOf_map]; simp
    have herr : errorsOf k outs = 0 := by
      cases hz : errorsOf k outs with
      | zero => rfl
      | succ n => have := (h.told (by omega)).2; rw [hg] at this; simp at this
    have hlen := after_length ts (attemptsOf k outs)
    rw [hcur] at hlen
    simp only [List.length_cons] at hlen
    constructor
    · rw [hA, legal_append, hcur]; exact ⟨h.legal, h1⟩
    · intro e' he'
      simp only [Tbl.get_update_self, hg, Option.map_some, Option.some.injEq] at he'
      subst he'
      rw [hA, after_append, hcur, h2]
    · rw [hA, fails_append]
      cases ok with
      | true =>
        simp only [if_true]
        intro hq
        have := h.queued hq
        omega
      | false =>
        intro _
        have := h4 rfl
        omega
    · rw [hE, herr]; intro hx; omega
    · rw [hE]; exact h.once
    · cases ok with
      | true =>
        simp only [if_true]
        rcases h.notYet with hn | hn | hn
        · exact Or.inl hn
        · rw [hg] at hn; simp at hn
        · right; right
          rw [hA, fails_append, after_append, hcur, h2]
          rw [hcur] at hn
          have := h3 rfl
          simp only [List.length_cons] at hn ⊢
          omega
      | false => left; simp

theorem notErr_schedule (k : Key) (t : Timer) (d : Nat) (m : Mgr) :
    Cmd.clientError k ∈ (m.scheduleClient k t d).pending ↔ Cmd.clientError k ∈ m.pending := by
  unfold Mgr.scheduleClient
  split
  · rfl
  · split <;> simp

theorem schedule_ctx (k : Key) (t : Timer) (d : Nat) (m : Mgr) (e' : CEntry)
    (h : (m.scheduleClient k t d).client.get k = some e') :
    ∃ e, m.client.get k = some e ∧ e.ctx = e'.ctx ∧ e.remaining = e'.remaining := by
  unfold Mgr.scheduleClient at h
  cases hg : m.client.get k with
  | none => simp [hg] at h
  | some e =>
    refine ⟨e, rfl, ?_⟩
    simp only [hg] at h
    split at h <;>
    · simp only [Tbl.get_update_self, hg, Option.map_some, Option.some.injEq] at h
      subst h; exact ⟨rfl, rfl⟩

theorem update_ctx (k : Key) (m : Mgr) (f : CEntry → CEntry)
    (hf : ∀ e, (f e).ctx = e.ctx ∧ (f e).remaining = e.remaining) (e' : CEntry)
    (h : (m.client.update k f).get k = some e') :
    ∃ e, m.client.get k = some e ∧ e.ctx = e'.ctx ∧ e.remaining = e'.remaining := by
  rw [Tbl.get_update_self] at h
  cases hg : m.client.get k with
  | none => simp [hg] at h
  | some e =>
    simp only [hg, Option.map_some, Option.some.injEq] at h
    subst h
    exact ⟨e, rfl, (hf e).1.symm, (hf e).2.symm⟩

theorem cancel_ctx (k : Key) (m : Mgr) (t : Timer) (e' : CEntry)
    (h : (m.cancelClient k t).client.get k = some e') :
    ∃ e, m.client.get k = some e ∧ e.ctx = e'.ctx ∧ e.remaining = e'.remaining := by
  unfold Mgr.cancelClient at h
  exact update_ctx k m (fun e => { e with timers := e.timers.filter (· ≠ t) }) (fun _ => ⟨rfl, rfl⟩) e' h

theorem deliver_quiet (k : Key) (r : Resp) (m : Mgr) :
    attemptsOf k (m.deliver k r) = [] ∧ errorsOf k (m.deliver k r) = 0 := by
  unfold Mgr.deliver
  split
  · exact ⟨rfl, rfl⟩
  · split <;> exact ⟨rfl, rfl⟩

theorem inv13_ci1 (net : Nat → Bool) (k : Key) (ts : List Ctx) (a : CIAction) (m : Mgr)
    (outs : List Out) (h : Inv13 k ts m outs) :
    Inv13 k ts (m.applyCI1 net k a).1 (outs ++ (m.applyCI1 net k a).2) := by
  cases a with
  | transmit b => exact inv13_dispatch net k ts b m outs h
  | deliver r =>
    exact h.frame _ (fun e' he' => ⟨e', he', rfl, rfl⟩) Iff.rfl (deliver_quiet k r m).1 (deliver_quiet k r m).2
  | expectPrack r =>
    simp only [Mgr.applyCI1]
    split
    · simpa using h
    · exact h.frame _ (fun e' he' => ⟨e', he', rfl, rfl⟩) Iff.rfl rfl rfl
  | generateAck r two =>
    simp only [Mgr.applyCI1]
    split
    · simpa using h
    · exact h.frame _ (fun e' he' => ⟨e', he', rfl, rfl⟩) Iff.rfl rfl rfl
  | schedule t d => exact h.frame [] (schedule_ctx k t d m) (notErr_schedule k t d m) rfl rfl
  | cancel t => exact h.frame [] (cancel_ctx k m t) Iff.rfl rfl rfl
  | terminate w =>
    simp only [Mgr.applyCI1]
    split
    · exact h.frame [] (fun e' he' => by simp [Tbl.get_remove_self] at he') Iff.rfl rfl rfl
    · exact h.frame _ (fun e' he' => by simp [Tbl.get_remove_self] at he') Iff.rfl rfl rfl

theorem inv13_cn1 (net : Nat → Bool) (k : Key) (ts : List Ctx) (a : CNAction) (m : Mgr)
    (outs : List Out) (h : Inv13 k ts m outs) :
    Inv13 k ts (m.applyCN1 net k a).1 (outs ++ (m.applyCN1 net k a).2) := by
  cases a with
  | transmit b => exact inv13_dispatch net k ts b m outs h
  | deliver r =>
    exact h.frame _ (fun e' he' => ⟨e', he', rfl, rfl⟩) Iff.rfl (deliver_quiet k r m).1 (deliver_quiet k r m).2
  | schedule t d => exact h.frame [] (schedule_ctx k t d m) (notErr_schedule k t d m) rfl rfl
  | cancel t => exact h.frame [] (cancel_ctx k m t) Iff.rfl rfl rfl
  | terminate w =>
    simp only [Mgr.applyCN1]
    split
    · simpa using h
    · exact h.frame _ (fun e' he' => by simp [Tbl.get_remove_self] at he') Iff.rfl rfl rfl

theorem inv13_ci (net : Nat → Bool) (k : Key) (ts : List Ctx) (as : List CIAction) (m : Mgr)
    (outs : List Out) (h : Inv13 k ts m outs) :
    Inv13 k ts (m.applyCI net k as).1 (outs ++ (m.applyCI net k as).2) := by
  induction as generalizing m outs with
  | nil => simpa [Mgr.applyCI] using h
  | cons a as ih =>
    simp only [Mgr.applyCI, andThen]
    rw [← List.append_assoc]
    exact ih _ _ (inv13_ci1 net k ts a m outs h)

theorem inv13_cn (net : Nat → Bool) (k : Key) (ts : List Ctx) (as : List CNAction) (m : Mgr)
    (outs : List Out) (h : Inv13 k ts m outs) :
    Inv13 k ts (m.applyCN net k as).1 (outs ++ (m.applyCN net k as).2) := by
  induction as generalizing m outs with
  | nil => simpa [Mgr.applyCN] using h
  | cons a as ih =>
    simp only [Mgr.applyCN, andThen]
    rw [← List.append_assoc]
    exact ih _ _ (inv13_cn1 net k ts a m outs h)

theorem inv13_reap (k : Key) (ts : List Ctx) (m : Mgr) (outs : List Out) (h : Inv13 k ts m outs) :
    Inv13 k ts (m.reap k) outs := by
  have := h.frame (m' := m.reap k) [] ?_ (by rw [reap_pending]) rfl rfl
  · simpa using this
  · intro e' he'
    cases hg : m.client.get k with
    | none => rw [reap_none k m hg] at he'; simp at he'
    | some e =>
      rw [reap_some k m e hg] at he'
      split at he'
      · simp at he'
      · simp only [Option.some.injEq] at he'; subst he'; exact ⟨e, rfl, rfl, rfl⟩

theorem inv13_apply (net : Nat → Bool) (k : Key) (ts : List Ctx) (as : CActs) (m : Mgr)
    (outs : List Out) (h : Inv13 k ts m outs) :
    Inv13 k ts (m.applyClient net k as).1 (outs ++ (m.applyClient net k as).2) := by
  cases as with
  | invite as => exact inv13_reap k ts _ _ (inv13_ci net k ts as m outs h)
  | nonInvite as => exact inv13_reap k ts _ _ (inv13_cn net k ts as m outs h)

theorem inv13_step (k : Key) (ts : List Ctx) (ev : CEv) (m m' : Mgr) (e : CEntry) (as : CActs)
    (outs : List Out) (h : Inv13 k ts m outs) (hs : m.stepClient k ev = some (m', e, as)) :
    Inv13 k ts m' outs := by
  unfold Mgr.stepClient at hs
  split at hs
  · simp at hs
  · rename_i e0 he0
    simp only [Option.some.injEq, Prod.mk.injEq] at hs
    obtain ⟨rfl, _⟩ := hs
    have := h.frame (m' := { m with client := (m.client.update k (fun x => { x with kind := (e0.kind.feed ev).1 })) }) []
      (update_ctx k m (fun x => { x with kind := (e0.kind.feed ev).1 }) (fun _ => ⟨rfl, rfl⟩)) Iff.rfl rfl rfl
    simpa using this

theorem inv13_timer (net : Nat → Bool) (k : Key) (ts : List Ctx) (t : Timer) (m : Mgr)
    (outs : List Out) (h : Inv13 k ts m outs) :
    Inv13 k ts (m.handleClientTimer net k t).1 (outs ++ (m.handleClientTimer net k t).2) := by
  unfold Mgr.handleClientTimer
  split
  · simpa using h
  · rename_i m' e as hs
    apply inv13_apply
    refine inv13_step k ts _ _ _ _ _ _ ?_ hs
    have := h.frame (m' := m.cancelClient k t) []
      (cancel_ctx k m t) Iff.rfl rfl rfl
    simpa using this

theorem inv13_error (net : Nat → Bool) (k : Key) (ts : List Ctx) (m : Mgr) (cs : List Cmd)
    (outs : List Out) (h : Inv13 k ts m outs) (hp : m.pending = .clientError k :: cs) :
    Inv13 k ts (Mgr.processClientError net k { m with pending := cs }).1
      (outs ++ (Mgr.processClientError net k { m with pending := cs }).2) := by
  have hq := h.queued (by rw [hp]; simp)
  have hgone := error_gone net k { m with pending := cs }
  unfold Mgr.processClientError at hgone ⊢
  cases hg : m.client.get k with
  | none =>
    have hs : Mgr.stepClient k .transportError { m with pending := cs } = none := by
      simp [Mgr.stepClient, hg]
    simp only [hs, List.append_nil]
    refine ⟨h.legal, ?_, fun _ => hq, ?_, h.once, Or.inr (Or.inl hg)⟩
    · intro e he; rw [hg] at he; simp at he
    · intro hx; exact ⟨hq, hg⟩
  | some e =>
    have herr : errorsOf k outs = 0 := by
      cases hz : errorsOf k outs with
      | zero => rfl
      | succ n => have := (h.told (by omega)).2; rw [hg] at this; simp at this
    obtain ⟨m', as, hs⟩ : ∃ m' as,
        Mgr.stepClient k .transportError { m with pending := cs } = some (m', e, as) :=
      ⟨_, _, by simp only [Mgr.stepClient, hg]; rfl⟩
    simp only [hs] at hgone ⊢
    -- the queued command is put back for the purpose of the invariant of the applied actions
    have h1 : Inv13 k ts { m with pending := cs ++ [.clientError k] } outs := by
      have := h.frame (m' := { m with pending := cs ++ [.clientError k] }) []
        (fun e' he' => ⟨e', he', rfl, rfl⟩) (by simp [hp]) rfl rfl
      simpa using this
    have hA : ∀ (as : CActs), as = .invite [.terminate "transport error"] ∨
        as = .nonInvite [.terminate "transport error"] → ∀ m,
        attemptsOf k (Mgr.applyClient net k as m).2 = [] ∧
        errorsOf k (Mgr.applyClient net k as m).2 = 0 := by
      rintro as (rfl | rfl) m <;>
      · simp only [Mgr.applyClient, Mgr.applyCI, Mgr.applyCN, Mgr.applyCI1, Mgr.applyCN1, andThen]
        split <;> exact ⟨rfl, rfl⟩
    have has : as = .invite [.terminate "transport error"] ∨
        as = .nonInvite [.terminate "transport error"] := by
      simp only [Mgr.stepClient, hg, Option.some.injEq, Prod.mk.injEq] at hs
      obtain ⟨_, _, rfl⟩ := hs
      cases e.kind with
      | invite s =>
        left
        simp only [CKind.feed, CI.step]
        cases s.state <;> rfl
      | nonInvite s =>
        right
        simp only [CKind.feed, CN.step]
        cases s.state <;> rfl
    obtain ⟨ha, he⟩ := hA as has m'
    have hA2 : attemptsOf k (outs ++ Out.transportError e.tu k :: (Mgr.applyClient net k as m').2) =
        attemptsOf k outs := by
      rw [attemptsOf_append]; simp [attemptsOf, ha]
    have hE2 : errorsOf k (outs ++ Out.transportError e.tu k :: (Mgr.applyClient net k as m').2) = 1 := by
      rw [errorsOf_append, herr]; simp [errorsOf, he]
    refine ⟨by rw [hA2]; exact h.legal, ?_, fun _ => by rw [hA2]; exact hq, ?_, by rw [hE2]; exact Nat.le_refl _,
      Or.inr (Or.inl hgone)⟩
    · intro e' he'; rw [hgone] at he'; simp at he'
    · intro _; rw [hA2]; exact ⟨hq, hgone⟩

theorem pend_err (k : Key) (l l' : List Cmd) (h : pendC k l = pendC k l') :
    Cmd.clientError k ∈ l ↔ Cmd.clientError k ∈ l' := by
  have : ∀ l, Cmd.clientError k ∈ l ↔ Cmd.clientError k ∈ pendC k l := by
    intro l; simp [pendC, Cmd.clientKey]
  rw [this, h, ← this]

theorem inv13_op (net : Nat → Bool) (k : Key) (ts : List Ctx) (m : Mgr) (outs : List Out) (op : Op)
    (hop : ¬ op.starts k) (h : Inv13 k ts m outs) :
    Inv13 k ts (step net m op).1 (outs ++ (step net m op).2) := by
  refine step_client net k (Inv13 k ts) False ?_ ?_ ?_ ?_ ?_ ?_ ?_ m outs op (fun x => hop x) h
  · intro m m' outs o hg _ hp ho hP
    obtain ⟨h1, _, _, h4, _⟩ := other_client k o ho
    exact hP.frame o (fun e' he' => ⟨e', hg ▸ he', rfl, rfl⟩) (pend_err k _ _ hp) h1 h4
  · intro m outs e hg hP
    exact hP.frame _ (fun e' he' => by simp [Tbl.get_remove_self] at he') Iff.rfl rfl rfl
  · intro m outs r hP
    unfold Mgr.dispatchResponse
    split
    · simpa using hP
    · rename_i m' e as hs
      exact inv13_apply net k ts as m' outs (inv13_step k ts _ _ _ _ _ _ hP hs)
  · intro m outs t hP; exact inv13_timer net k ts t m outs hP
  · intro m outs t cs hp hP
    apply inv13_timer
    have := hP.frame (m' := { m with pending := cs }) [] (fun e' he' => ⟨e', he', rfl, rfl⟩)
      (by simp [hp]) rfl rfl
    simpa using this
  · intro m outs cs hp hP; exact inv13_error net k ts m cs outs hP hp
  · intro _ _ _ _ _ _ _ hF; exact hF.elim

/-- nothing has happened for `k` yet -/
def Fresh (k : Key) (m : Mgr) (outs : List Out) : Prop :=
  m.client.get k = none ∧ pendC k m.pending = [] ∧ ∀ o ∈ outs, o.clientKey ≠ some k

theorem fresh_op (net : Nat → Bool) (k : Key) (m : Mgr) (outs : List Out) (op : Op)
    (hop : ¬ op.starts k) (h : Fresh k m outs) :
    Fresh k (step net m op).1 (outs ++ (step net m op).2) := by
  refine step_client net k (Fresh k) False ?_ ?_ ?_ ?_ ?_ ?_ ?_ m outs op (fun x => hop x) h
  · rintro m m' outs o hg _ hp ho ⟨h1, h2, h3⟩
    refine ⟨hg.trans h1, hp.trans h2, ?_⟩
    intro x hx
    rcases List.mem_append.mp hx with hx | hx
    · exact h3 x hx
    · exact ho x hx
  · rintro m outs e hg ⟨h1, _⟩; rw [hg] at h1; simp at h1
  · rintro m outs r ⟨h1, h2, h3⟩
    have : m.dispatchResponse net k r = (m, []) := by simp [Mgr.dispatchResponse, Mgr.stepClient, h1]
    rw [this]; simpa using ⟨h1, h2, h3⟩
  · rintro m outs t ⟨h1, h2, h3⟩
    have : m.handleClientTimer net k t = (m, []) := by
      simp [Mgr.handleClientTimer, Mgr.stepClient, Mgr.cancelClient, Tbl.get_update_self, h1]
    rw [this]; simpa using ⟨h1, h2, h3⟩
  · rintro m outs t cs hp ⟨h1, h2, h3⟩
    rw [hp] at h2; simp [pendC, Cmd.clientKey] at h2
  · rintro m outs cs hp ⟨h1, h2, h3⟩
    rw [hp] at h2; simp [pendC, Cmd.clientKey] at h2
  · intro _ _ _ _ _ _ _ hF; exact hF.elim

theorem fresh_runOps (net : Nat → Bool) (k : Key) (ms mc t1 t2 t4 : Nat) (ops : List Op)
    (h : ∀ op ∈ ops, ¬ op.starts k) :
    Fresh k (runOps net (Mgr.init ms mc t1 t2 t4) ops).1 (runOps net (Mgr.init ms mc t1 t2 t4) ops).2 := by
  have := runOps_inv net (Fresh k) (fun op => ¬ op.starts k) (fun m outs op h1 h2 => fresh_op net k m outs op h1 h2)
    (Mgr.init ms mc t1 t2 t4) [] ops h ⟨rfl, rfl, by simp⟩
  simpa using this

/-- starting `k` in a state where nothing has happened for it -/
theorem start_split (net : Nat → Bool) (m : Mgr) (k : Key) (method : Method) (via : Option Str)
    (b : Bytes) (c : Ctx) (rem : List Ctx) (tu now : Nat)
    (hk : (Op.start method via b (c :: rem) tu now).starts k) :
    step net m (.start method via b (c :: rem) tu now) =
      andThen m.enforceClient (Mgr.launch net k b c rem tu now) := by
  obtain ⟨_, his, hme, hb⟩ := hk
  have hkey : (⟨k.branch, method, false⟩ : Key) = k := by cases k; simp_all
  simp only [step, Mgr.startClient, hb, hkey]

theorem fresh_enforce (k : Key) (m : Mgr) (outs : List Out) (h : Fresh k m outs) :
    Fresh k m.enforceClient.1 (outs ++ m.enforceClient.2) := by
  rcases enforceClient_cases m with he | ⟨k', e, hg, he⟩
  · rw [he]; simpa using h
  · rw [he]
    have hk : k' ≠ k := by rintro rfl; rw [h.1] at hg; simp at hg
    refine ⟨?_, h.2.1, ?_⟩
    · simp only; rw [Tbl.get_remove_ne _ (Ne.symm hk)]; exact h.1
    · intro o ho
      rcases List.mem_append.mp ho with ho | ho
      · exact h.2.2 o ho
      · simp only [List.mem_singleton] at ho
        subst ho; simpa [Out.clientKey] using hk

theorem inv13_launch (net : Nat → Bool) (k : Key) (b : Bytes) (c : Ctx) (rem : List Ctx) (tu now : Nat)
    (m : Mgr) (outs : List Out) (h : Fresh k m outs) :
    Inv13 k (c :: rem) (m.launch net k b c rem tu now).1 (outs ++ (m.launch net k b c rem tu now).2) := by
  have hA : attemptsOf k outs = [] := (other_client k outs h.2.2).1
  have hE : errorsOf k outs = 0 := (other_client k outs h.2.2).2.2.2.1
  have hq : Cmd.clientError k ∉ m.pending := by
    intro hq
    have : Cmd.clientError k ∈ pendC k m.pending := by simp [pendC, Cmd.clientKey, hq]
    rw [h.2.1] at this; simp at this
  have base : ∀ kd, Inv13 k (c :: rem)
      { m with client := m.client.insert k ⟨kd, c, tu, [], now, rem⟩ } outs := by
    intro kd
    constructor
    · rw [hA]; simp [Legal]
    · intro e he
      simp only [Tbl.get_insert_self, Option.some.injEq] at he
      subst he; rw [hA]; rfl
    · intro hx; exact absurd hx hq
    · intro hx; omega
    · omega
    · right; right; rw [hA]; simp [fails, after]
  unfold Mgr.launch
  simp only
  split
  · exact inv13_apply net k _ _ _ outs (base _)
  · exact inv13_apply net k _ _ _ outs (base _)

end Siphon.Manager
