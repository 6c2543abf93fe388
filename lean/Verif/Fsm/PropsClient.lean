import Verif.Fsm.Lemmas
/-!
# Client transactions: C01, C02, C03, C04, C07 (client part), C08
-/

set_option linter.unusedSimpArgs false

namespace Siphon.Fsm

/-! Concrete data used by the non-vacuity examples. -/
def exUdp : Timers := ⟨.udp, 500, 4000, 5000⟩
def exTcp : Timers := ⟨.tcp, 500, 4000, 5000⟩
def exInvite : Req := ⟨[73, 78, 86]⟩
def ex180 : Resp := ⟨180, false, [1]⟩
def ex200 : Resp := ⟨200, false, [2]⟩
def ex486 : Resp := ⟨486, false, [4]⟩

/-! ## C01 -/

/-- **C01.** In every history of an INVITE client transaction the sequence of ACKs is exactly
the sequence of final responses delivered to the user (one ACK each, same response, same
order), and the ACK kind says "2xx" exactly when the response is 2xx. -/
theorem C01_ack_exactly_once (tm : Timers) (es : List CIEvent) (hw : ∀ e ∈ es, e.WellFormed) :
    let out := outputs (run CI.step (CI.new tm) es).2
    CIAction.acks out =
      ((CIAction.delivered out).filter (fun r => decide (200 ≤ r.code))).map
        (fun r => (r, decide (200 ≤ r.code ∧ r.code ≤ 299))) := by
  have := ci_acks_run (CI.new tm) es hw
  simpa [Resp.is2xx] using this

/-- C01, completeness: a final response that arrives while the transaction lives, and a 2xx
even afterwards, is delivered and acknowledged in that very step. -/
theorem C01_final_is_delivered (tm : Timers) (es : List CIEvent) (r : Resp)
    (hl : (run CI.step (CI.new tm) es).1.state ≠ .terminated ∨ (200 ≤ r.code ∧ r.code ≤ 299)) :
    CIAction.delivered (CI.step (run CI.step (CI.new tm) es).1 (.final r)).2 = [r] ∧
    CIAction.acks (CI.step (run CI.step (CI.new tm) es).1 (.final r)).2 =
      [(r, decide (200 ≤ r.code ∧ r.code ≤ 299))] := by
  have hnc := ci_not_confirmed (CI.new tm) es (by simp [CI.new])
  revert hl hnc
  generalize (run CI.step (CI.new tm) es).1 = s
  obtain ⟨st, tm', ai, li⟩ := s
  cases st <;> simp only [CI.step, CI.handleFinal, CI.handleFinal2xx, CI.handleFinalNon2xx,
    Resp.is2xx] <;> (repeat' split) <;> simp_all [CIAction.delivered, CIAction.acks]

example : ∃ es, (∀ e ∈ es, CIEvent.WellFormed e) ∧
    CIAction.acks (outputs (run CI.step (CI.new exUdp) es).2) = [(ex486, false), (ex486, false), (ex200, true)] :=
  ⟨[.sendInvite exInvite, .provisional ex180, .final ex486, .final ex486, .timer .D, .final ex200],
   by simp [CIEvent.WellFormed, ex180, ex486, ex200], by decide⟩

/-! ## C02 -/

/-- **C02.** Once any response has arrived, Timer B has fired or the transport has failed, the
transaction puts nothing on the wire, whatever happens later. -/
theorem C02_silent_after_response (tm : Timers) (pre : List CIEvent) (e : CIEvent)
    (post : List CIEvent) (h : e.settles = true) :
    let s := (run CI.step (CI.new tm) (pre ++ [e])).1
    CIAction.sent (outputs (run CI.step s post).2) = [] := by
  intro s
  have hs : s.state ≠ .calling := by
    show (run CI.step (CI.new tm) (pre ++ [e])).1.state ≠ .calling
    rw [run_snoc_fst]
    exact ci_settled_step _ e (ci_not_confirmed _ _ (by simp [CI.new])) h
  exact run_outputs_empty _ ci_sent_append rfl (fun s => s.state ≠ .calling) (fun _ => True)
    (fun s e _ h => (ci_noncalling_step s e h).1) (fun s e _ h => (ci_noncalling_step s e h).2)
    s post (fun _ _ => trivial) hs

/-- C02: what a timer puts on the wire is the request last submitted, byte for byte. -/
theorem C02_retransmits_same_request (tm : Timers) (pre : List CIEvent) (t : Timer) (b : Bytes)
    (h : b ∈ CIAction.sent (CI.step (run CI.step (CI.new tm) pre).1 (.timer t)).2) :
    t = .A ∧ ∃ r, CIEvent.lastSubmitted pre = some r ∧ b = r.bytes := by
  have hl := ci_last_run (CI.new tm) pre
  revert h hl
  generalize hs : (run CI.step (CI.new tm) pre).1 = s
  clear hs
  obtain ⟨st, tm', ai, li⟩ := s
  cases st <;> cases t <;>
    simp only [CI.step, CI.handleTimerA, CI.handleTimerB, CI.handleTimerD] <;>
    (repeat' split) <;> simp_all [CIAction.sent, CI.new] <;>
    (cases hq : CIEvent.lastSubmitted pre <;> simp_all)

/-- C02: a response is what silences it; before, Timer A does retransmit (UDP). -/
example : CIAction.sent (outputs (run CI.step (CI.new exUdp)
      [.sendInvite exInvite, .timer .A, .timer .A, .provisional ex180, .timer .A]).2)
    = [exInvite.bytes, exInvite.bytes, exInvite.bytes] := by decide

/-! ## C03 -/

/-- **C03 (INVITE, unreliable).** As long as no response has come, the `k`-th firing of Timer A
re-sends the request and re-arms with `min (2^k T1) T2`. -/
theorem C03_invite_schedule (tm : Timers) (pre : List CIEvent) (r : Req)
    (hu : tm.transport = .udp) (ht : 0 < tm.t1)
    (hc : ∀ e ∈ pre, e.settles = false) (hr : CIEvent.lastSubmitted pre = some r) :
    (CI.step (run CI.step (CI.new tm) pre).1 (.timer .A)).2 =
      [.transmit r.bytes,
       .schedule .A (min (2 ^ (pre.count (.timer .A) + 1) * tm.t1) tm.t2)] := by
  have hcall : (run CI.step (CI.new tm) pre).1.state = .calling := by
    refine run_inv_ev (fun s : CI => s.state = .calling) (fun e => e.settles = false) ?_ _ _ hc rfl
    intro s e
    ci_cases s e <;> (repeat' split) <;> simp_all [CIEvent.settles]
  have hrel : tm.transport.isReliable = false := by rw [hu]; rfl
  have hi := ci_interval_run (CI.new tm) pre 0 hrel (by simp [CI.new]; omega)
    (Or.inr ⟨rfl, by simp [CI.new, Timers.duration, hrel]⟩) hcall
  have hl := ci_last_run (CI.new tm) pre hcall
  have htm := ci_run_timers (CI.new tm) pre
  have hd := capped_double _ _ _ _ hi
  revert hd hl htm hcall
  generalize (run CI.step (CI.new tm) pre).1 = s
  obtain ⟨st, tm', ai, li⟩ := s
  intro hcall hl htm hd
  simp only [CI.new] at htm hd hl
  simp only at hcall hd
  subst hcall
  subst htm
  simp only [hr] at hl
  subst hl
  have ht' : tm'.t1 ≠ 0 := by omega
  simp only [Nat.zero_add] at hd
  simp [CI.step, CI.handleTimerA, Timers.duration, hrel, ht', hd]

/-- C03: submitting the request transmits it once, arms Timer A with T1 exactly on unreliable
transports and Timer B with 64 T1. -/
theorem C03_invite_first (tm : Timers) (r : Req) (ht : 0 < tm.t1) :
    (CI.step (CI.new tm) (.sendInvite r)).2 =
      if tm.transport = .udp then [.transmit r.bytes, .schedule .A tm.t1, .schedule .B (64 * tm.t1)]
      else [.transmit r.bytes, .schedule .B (64 * tm.t1)] := by
  have : tm.t1 ≠ 0 := by omega
  cases h : tm.transport <;>
    simp [CI.step, CI.new, CI.handleSendInvite, Timers.duration, Transport.isReliable, h, this,
      Nat.mul_comm]

/-- **C03 (INVITE, reliable).** Over TCP or TLS nothing is ever retransmitted: no timer event
sends anything and Timer A is never armed. -/
theorem C03_invite_reliable (tm : Timers) (hr : tm.transport ≠ .udp) (es : List CIEvent) :
    CIAction.armedWith .A (outputs (run CI.step (CI.new tm) es).2) = [] ∧
    ∀ t, CIAction.sent (CI.step (run CI.step (CI.new tm) es).1 (.timer t)).2 = [] := by
  have hrel : tm.transport.isReliable = true := by
    cases h : tm.transport <;> simp_all [Transport.isReliable]
  constructor
  · refine run_outputs_empty _ (ci_armed_append .A) rfl (fun s => s.timers = tm) (fun _ => True)
      (fun s e _ h => by rw [ci_timers, h]) ?_ _ _ (fun _ _ => trivial) rfl
    intro s e _ h
    revert h
    ci_cases s e <;> (repeat' split) <;> simp_all [CIAction.armedWith, Timers.duration] <;> grind
  · intro t
    have htm := ci_run_timers (CI.new tm) es
    revert htm
    generalize (run CI.step (CI.new tm) es).1 = s
    obtain ⟨st, tm', ai, li⟩ := s
    intro htm
    simp only [CI.new] at htm
    subst htm
    cases st <;> cases t <;>
      simp [CI.step, CI.handleTimerA, CI.handleTimerB, CI.handleTimerD, CIAction.sent,
        Timers.duration, hrel]

/-- **C03 (non-INVITE, unreliable).** Until a final response, Timer F or a transport error, the
`k`-th firing of Timer E re-sends the request and re-arms with `min (2^k T1) T2`. -/
theorem C03_noninvite_schedule (tm : Timers) (pre : List CNEvent) (r : Req)
    (hu : tm.transport = .udp) (ht : 0 < tm.t1)
    (hlive : (run CN.step (CN.new tm) (.sendRequest r :: pre)).1.state ∈
      [CNState.trying, CNState.proceeding])
    (hnos : ∀ e ∈ pre, ∀ q, e ≠ .sendRequest q) :
    (CN.step (run CN.step (CN.new tm) (.sendRequest r :: pre)).1 (.timer .E)).2 =
      [.transmit r.bytes,
       .schedule .E (min (2 ^ (pre.count (.timer .E) + 1) * tm.t1) tm.t2)] := by
  have hrel : tm.transport.isReliable = false := by rw [hu]; rfl
  have hnd : ¬ (run CN.step (CN.new tm) (.sendRequest r :: pre)).1.done := by
    unfold CN.done
    revert hlive
    generalize (run CN.step (CN.new tm) (.sendRequest r :: pre)).1.state = st
    cases st <;> simp [CNState.rank]
  have hi := cn_interval_run (CN.new tm) (.sendRequest r :: pre) 0 hrel (by simp [CN.new]; omega)
    (Or.inr ⟨rfl, by simp [CN.new, Timers.duration, hrel]⟩) hnd
  have hl : (run CN.step (CN.new tm) (.sendRequest r :: pre)).1.lastRequest = some r.bytes := by
    rw [run_cons]
    refine run_inv_ev (fun s : CN => s.lastRequest = some r.bytes)
      (fun e => ∀ q, e ≠ .sendRequest q) ?_ _ _ hnos rfl
    intro s e hq hs
    rw [cn_last_step]
    cases e <;> simp_all
  have htm := cn_run_timers (CN.new tm) (.sendRequest r :: pre)
  have hd := capped_double _ _ _ _ hi
  revert hd hl htm hlive
  generalize (run CN.step (CN.new tm) (.sendRequest r :: pre)).1 = s
  obtain ⟨st, tm', ai, li⟩ := s
  intro hlive hl htm hd
  simp only [CN.new] at htm hd
  simp only at hlive hd hl
  subst htm
  subst hl
  have ht' : tm'.t1 ≠ 0 := by omega
  simp only [Nat.zero_add, List.count_cons] at hd
  cases st <;> simp_all [CN.step, CN.handleTimerE, Timers.duration]

/-- **C03 (non-INVITE, reliable).** -/
theorem C03_noninvite_reliable (tm : Timers) (hr : tm.transport ≠ .udp) (es : List CNEvent) :
    CNAction.armedWith .E (outputs (run CN.step (CN.new tm) es).2) = [] ∧
    ∀ t, CNAction.sent (CN.step (run CN.step (CN.new tm) es).1 (.timer t)).2 = [] := by
  have hrel : tm.transport.isReliable = true := by
    cases h : tm.transport <;> simp_all [Transport.isReliable]
  constructor
  · refine run_outputs_empty _ (cn_armed_append .E) rfl (fun s => s.timers = tm) (fun _ => True)
      (fun s e _ h => by rw [cn_timers, h]) ?_ _ _ (fun _ _ => trivial) rfl
    intro s e _ h
    revert h
    cn_cases s e <;> (repeat' split) <;> simp_all [CNAction.armedWith, Timers.duration] <;> grind
  · intro t
    have htm := cn_run_timers (CN.new tm) es
    revert htm
    generalize (run CN.step (CN.new tm) es).1 = s
    obtain ⟨st, tm', ai, li⟩ := s
    intro htm
    simp only [CN.new] at htm
    subst htm
    cases st <;> cases t <;>
      simp [CN.step, CN.handleTimerE, CN.handleTimerF, CN.handleTimerK, CNAction.sent,
        Timers.duration, hrel]

/-- C03: the INVITE schedule 500, 1000, 2000, 4000, 4000 ... is really produced. -/
example : CIAction.armedWith .A (outputs (run CI.step (CI.new exUdp)
      [.sendInvite exInvite, .timer .A, .timer .A, .timer .A, .timer .A, .timer .A]).2)
    = [500, 1000, 2000, 4000, 4000, 4000] := by decide

example : (run CN.step (CN.new exUdp) (.sendRequest exInvite :: [.timer .E, .provisional ex180])).1.state
    ∈ [CNState.trying, CNState.proceeding] := by decide

/-! ## C04 -/

/-- **C04.** After a final response has been delivered nothing more is delivered and nothing
more is sent by a non-INVITE client transaction. -/
theorem C04_nothing_after_final (tm : Timers) (pre post : List CNEvent) (r : Resp)
    (hw : ∀ e ∈ pre, e.WellFormed) (hc : 200 ≤ r.code)
    (hd : r ∈ CNAction.delivered (outputs (run CN.step (CN.new tm) pre).2)) :
    let s := (run CN.step (CN.new tm) pre).1
    CNAction.delivered (outputs (run CN.step s post).2) = [] ∧
    CNAction.sent (outputs (run CN.step s post).2) = [] := by
  intro s
  have h := cn_done_of_final (CN.new tm) pre hw r hd hc
  exact ⟨cn_delivered_done s post h, cn_sent_done s post h⟩

/-- **C04.** At most one final response is delivered. -/
theorem C04_at_most_one_final (tm : Timers) (es : List CNEvent) (hw : ∀ e ∈ es, e.WellFormed) :
    ((CNAction.delivered (outputs (run CN.step (CN.new tm) es).2)).filter
      (fun r => decide (200 ≤ r.code))).length ≤ 1 := by
  suffices ∀ s : CN, ((CNAction.delivered (outputs (run CN.step s es).2)).filter
      (fun r => decide (200 ≤ r.code))).length ≤ 1 from this _
  induction es with
  | nil => intro s; simp [run, outputs, CNAction.delivered]
  | cons e es ih =>
    intro s
    simp only [run_cons, outputs_cons, cn_delivered_append, List.filter_append, List.length_append]
    by_cases h : ∃ r ∈ CNAction.delivered (CN.step s e).2, 200 ≤ r.code
    · obtain ⟨r, hr, hc⟩ := h
      obtain ⟨hd, hl⟩ := cn_final_step s e (hw e (by simp)) r hr hc
      rw [cn_delivered_done _ es hd, hl]
      simp [hc]
    · have : (CNAction.delivered (CN.step s e).2).filter (fun r => decide (200 ≤ r.code)) = [] := by
        rw [List.filter_eq_nil_iff]
        intro r hr hc
        exact h ⟨r, hr, by simpa using hc⟩
      rw [this]
      simpa using ih (fun e' he' => hw e' (by simp [he'])) _

/-- C04, completeness: the first final response of a live transaction is delivered. -/
theorem C04_final_is_delivered (tm : Timers) (pre : List CNEvent) (r : Resp)
    (hlive : (run CN.step (CN.new tm) pre).1.state ∈ [CNState.trying, CNState.proceeding]) :
    CNAction.delivered (CN.step (run CN.step (CN.new tm) pre).1 (.final r)).2 = [r] := by
  revert hlive
  generalize (run CN.step (CN.new tm) pre).1 = s
  obtain ⟨st, tm', ai, li⟩ := s
  cases st <;> simp [CN.step, CN.handleFinal, CNAction.delivered]

example : CNAction.delivered (outputs (run CN.step (CN.new exUdp)
    [.sendRequest exInvite, .provisional ex180, .final ex200, .final ex486, .provisional ex180, .timer .K, .final ex200]).2)
    = [ex180, ex200] := by decide

/-! ## C07, client side -/

/-- **C07 (client INVITE).** States only move forward in the RFC order along any history. -/
theorem C07_client_invite_forward (tm : Timers) (pre post : List CIEvent) :
    (run CI.step (CI.new tm) pre).1.state.rank ≤
      (run CI.step (CI.new tm) (pre ++ post)).1.state.rank := by
  rw [run_append]; exact ci_rank_run _ _

/-- **C07 (client INVITE).** Terminated is final: no later event changes the state, sends,
arms a timer, or delivers anything but a 2xx. -/
theorem C07_client_invite_terminated (tm : Timers) (pre post : List CIEvent)
    (h : (run CI.step (CI.new tm) pre).1.state = .terminated) :
    let r := run CI.step (run CI.step (CI.new tm) pre).1 post
    r.1.state = .terminated ∧ CIAction.sent (outputs r.2) = [] ∧
    (∀ t, CIAction.armedWith t (outputs r.2) = []) ∧
    (∀ x ∈ CIAction.delivered (outputs r.2), 200 ≤ x.code ∧ x.code ≤ 299) := by
  intro r
  have hst : ∀ (s : CI) (e : CIEvent), True → s.state = .terminated →
      (CI.step s e).1.state = .terminated := by
    intro s e _
    ci_cases s e <;> (repeat' split) <;> simp_all
  refine ⟨run_inv _ (fun s e => hst s e trivial) _ _ h, ?_, ?_, ?_⟩
  · refine run_outputs_empty _ ci_sent_append rfl (fun s => s.state = .terminated) (fun _ => True)
      hst ?_ _ _ (fun _ _ => trivial) h
    intro s e _
    ci_cases s e <;> (repeat' split) <;> simp_all [CIAction.sent]
  · intro t
    refine run_outputs_empty _ (ci_armed_append t) rfl (fun s => s.state = .terminated)
      (fun _ => True) hst ?_ _ _ (fun _ _ => trivial) h
    intro s e _
    ci_cases s e <;> (repeat' split) <;> simp_all [CIAction.armedWith]
  · have := run_outputs_empty
      (fun l => (CIAction.delivered l).filter (fun x => !x.is2xx))
      (fun a b => by simp [ci_delivered_append]) rfl (fun s : CI => s.state = .terminated) (fun _ => True)
      hst (by
        intro s e _
        ci_cases s e <;> (repeat' split) <;> simp_all [CIAction.delivered])
      _ post (fun _ _ => trivial) h
    intro x hx
    rw [List.filter_eq_nil_iff] at this
    simpa [Resp.is2xx] using this x hx

/-- C07: the state the Rust code calls `Confirmed` is never entered by an INVITE client. -/
theorem C07_client_invite_never_confirmed (tm : Timers) (es : List CIEvent) :
    (run CI.step (CI.new tm) es).1.state ≠ .confirmed :=
  ci_not_confirmed _ _ (by simp [CI.new])

/-- **C07 (client non-INVITE).** -/
theorem C07_client_noninvite_forward (tm : Timers) (pre post : List CNEvent) :
    (run CN.step (CN.new tm) pre).1.state.rank ≤
      (run CN.step (CN.new tm) (pre ++ post)).1.state.rank := by
  rw [run_append]; exact cn_rank_run _ _

theorem C07_client_noninvite_terminated (tm : Timers) (pre post : List CNEvent)
    (h : (run CN.step (CN.new tm) pre).1.state = .terminated) :
    let r := run CN.step (run CN.step (CN.new tm) pre).1 post
    r.1.state = .terminated ∧ CNAction.sent (outputs r.2) = [] ∧
    (∀ t, CNAction.armedWith t (outputs r.2) = []) ∧ CNAction.delivered (outputs r.2) = [] := by
  intro r
  have hst : ∀ (s : CN) (e : CNEvent), True → s.state = .terminated →
      (CN.step s e).1.state = .terminated := by
    intro s e _
    cn_cases s e <;> (repeat' split) <;> simp_all
  have hd : (run CN.step (CN.new tm) pre).1.done := by simp [CN.done, h, CNState.rank]
  refine ⟨run_inv _ (fun s e => hst s e trivial) _ _ h, cn_sent_done _ _ hd, ?_,
    cn_delivered_done _ _ hd⟩
  intro t
  refine run_outputs_empty _ (cn_armed_append t) rfl (fun s => s.state = .terminated)
    (fun _ => True) hst ?_ _ _ (fun _ _ => trivial) h
  intro s e _
  cn_cases s e <;> (repeat' split) <;> simp_all [CNAction.armedWith]

example : (run CI.step (CI.new exUdp) [.sendInvite exInvite, .final ex486, .timer .D]).1.state = .terminated := by decide
example : (run CN.step (CN.new exUdp) [.sendRequest exInvite, .timer .F]).1.state = .terminated := by decide

/-! ## C08 -/

/-- configuration invariant of an INVITE client transaction whose only request was sent at `t0` -/
def CI.Bounded (tm : Timers) (t0 : Nat) (c : CI × Armed) : Prop :=
  c.1.timers = tm ∧ match c.1.state with
  | .calling | .proceeding => c.2 .B = some (t0 + 64 * tm.t1)
  | .completed => ∃ d, c.2 .D = some d ∧ d ≤ t0 + 64 * tm.t1 + tm.duration .D
  | .confirmed => False
  | .terminated => True

theorem CI.bounded_step (tm : Timers) (t0 now : Nat) (c : CI × Armed) (e : CIEvent)
    (hc : CI.Bounded tm t0 c) (ho : c.2.onTime now) (he : ∀ r, e ≠ .sendInvite r) :
    CI.Bounded tm t0 (timedStep CI.step CIAction.timerEff CIEvent.fired now c e) := by
  obtain ⟨s, m⟩ := c
  have hB := ho .B
  have hD := ho .D
  revert hc he hB hD
  clear ho
  unfold CI.Bounded timedStep
  ci_cases s e <;> (try simp only [CIEvent.fired]) <;> (repeat' split) <;>
    simp_all [CIEvent.fired, CIAction.timerEff, TimerEff.apply, Armed.set] <;>
    (try omega)

/-- **C08 (INVITE client).** If the only request is sent at `t0` and timers fire on time, then at
every moment the transaction is Terminated or not more than 64 T1 plus the Timer D linger
(32 s on UDP, 0 otherwise) has passed. In particular some timer bounding it is always armed. -/
theorem C08_invite_client_terminates (tm : Timers) (t0 : Nat) (r : Req)
    (h : List (Nat × CIEvent)) (hn : ∀ x ∈ h, ∀ q, x.2 ≠ .sendInvite q) (now : Nat)
    (c : CI × Armed)
    (hc : c = timedStep CI.step CIAction.timerEff CIEvent.fired t0 (CI.new tm, fun _ => none)
      (.sendInvite r))
    (ht : Timely CI.step CIAction.timerEff CIEvent.fired c t0 h)
    (hend : (timedRun CI.step CIAction.timerEff CIEvent.fired c h).2.onTime now) :
    (timedRun CI.step CIAction.timerEff CIEvent.fired c h).1.state = .terminated ∨
    now ≤ t0 + 64 * tm.t1 + (if tm.transport = .udp then 32000 else 0) := by
  have hdur : tm.duration .D = (if tm.transport = .udp then 32000 else 0) := by
    cases hh : tm.transport <;> simp [Timers.duration, Transport.isReliable, hh]
  have h0 : CI.Bounded tm t0 c := by
    subst hc
    unfold CI.Bounded timedStep
    simp only [CI.step, CI.new, CI.handleSendInvite]
    split <;> simp [CIEvent.fired, CIAction.timerEff, TimerEff.apply, Armed.set,
      Timers.duration, Nat.mul_comm]
  clear hc
  suffices CI.Bounded tm t0 (timedRun CI.step CIAction.timerEff CIEvent.fired c h) by
    revert this hend
    generalize timedRun CI.step CIAction.timerEff CIEvent.fired c h = c'
    obtain ⟨⟨st, tm', ai, li⟩, m⟩ := c'
    intro hend hb
    obtain ⟨_, hb⟩ := hb
    rw [← hdur]
    cases st
    · right; have := hend .B _ hb; omega
    · right; have := hend .B _ hb; omega
    · right; obtain ⟨d, hd, hle⟩ := hb; have := hend .D _ hd; omega
    · exact hb.elim
    · left; rfl
  clear hend
  generalize t0 = tprev at ht h0 ⊢
  suffices ∀ tp, Timely CI.step CIAction.timerEff CIEvent.fired c tp h →
      CI.Bounded tm tprev (timedRun CI.step CIAction.timerEff CIEvent.fired c h) from this _ ht
  clear ht
  induction h generalizing c with
  | nil => intro _ _; exact h0
  | cons x xs ih =>
    obtain ⟨t, e⟩ := x
    intro tp ht
    obtain ⟨_, ho, ht'⟩ := ht
    exact ih (fun y hy => hn y (by simp [hy])) _
      (CI.bounded_step tm tprev t c e h0 ho (hn (t, e) (by simp))) t ht'

/-- configuration invariant of a non-INVITE client transaction started at `t0` -/
def CN.Bounded (tm : Timers) (t0 : Nat) (c : CN × Armed) : Prop :=
  c.1.timers = tm ∧ match c.1.state with
  | .trying | .proceeding => c.2 .F = some (t0 + 64 * tm.t1)
  | .completed => ∃ d, c.2 .K = some d ∧ d ≤ t0 + 64 * tm.t1 + tm.duration .K
  | .terminated => True

theorem CN.bounded_step (tm : Timers) (t0 now : Nat) (c : CN × Armed) (e : CNEvent)
    (hc : CN.Bounded tm t0 c) (ho : c.2.onTime now) (he : ∀ r, e ≠ .sendRequest r) :
    CN.Bounded tm t0 (timedStep CN.step CNAction.timerEff CNEvent.fired now c e) := by
  obtain ⟨s, m⟩ := c
  have hB := ho .F
  have hD := ho .K
  revert hc he hB hD
  clear ho
  unfold CN.Bounded timedStep
  cn_cases s e <;> (try simp only [CNEvent.fired]) <;> (repeat' split) <;>
    simp_all [CNEvent.fired, CNAction.timerEff, TimerEff.apply, Armed.set] <;>
    (try omega)

/-- **C08 (non-INVITE client).** Bound 64 T1 plus the Timer K linger (T4 on UDP). -/
theorem C08_noninvite_client_terminates (tm : Timers) (t0 : Nat) (r : Req)
    (h : List (Nat × CNEvent)) (hn : ∀ x ∈ h, ∀ q, x.2 ≠ .sendRequest q) (now : Nat)
    (c : CN × Armed)
    (hc : c = timedStep CN.step CNAction.timerEff CNEvent.fired t0 (CN.new tm, fun _ => none)
      (.sendRequest r))
    (ht : Timely CN.step CNAction.timerEff CNEvent.fired c t0 h)
    (hend : (timedRun CN.step CNAction.timerEff CNEvent.fired c h).2.onTime now) :
    (timedRun CN.step CNAction.timerEff CNEvent.fired c h).1.state = .terminated ∨
    now ≤ t0 + 64 * tm.t1 + (if tm.transport = .udp then tm.t4 else 0) := by
  have hdur : tm.duration .K = (if tm.transport = .udp then tm.t4 else 0) := by
    cases hh : tm.transport <;> simp [Timers.duration, Transport.isReliable, hh]
  have h0 : CN.Bounded tm t0 c := by
    subst hc
    unfold CN.Bounded timedStep
    simp only [CN.step, CN.new, CN.handleInitialSend]
    split <;> simp [CNEvent.fired, CNAction.timerEff, TimerEff.apply, Armed.set,
      Timers.duration, Nat.mul_comm]
  clear hc
  suffices CN.Bounded tm t0 (timedRun CN.step CNAction.timerEff CNEvent.fired c h) by
    revert this hend
    generalize timedRun CN.step CNAction.timerEff CNEvent.fired c h = c'
    obtain ⟨⟨st, tm', ai, li⟩, m⟩ := c'
    intro hend hb
    obtain ⟨_, hb⟩ := hb
    rw [← hdur]
    cases st
    · right; have := hend .F _ hb; omega
    · right; have := hend .F _ hb; omega
    · right; obtain ⟨d, hd, hle⟩ := hb; have := hend .K _ hd; omega
    · left; rfl
  clear hend
  generalize t0 = tprev at ht h0 ⊢
  suffices ∀ tp, Timely CN.step CNAction.timerEff CNEvent.fired c tp h →
      CN.Bounded tm tprev (timedRun CN.step CNAction.timerEff CNEvent.fired c h) from this _ ht
  clear ht
  induction h generalizing c with
  | nil => intro _ _; exact h0
  | cons x xs ih =>
    obtain ⟨t, e⟩ := x
    intro tp ht
    obtain ⟨_, ho, ht'⟩ := ht
    exact ih (fun y hy => hn y (by simp [hy])) _
      (CN.bounded_step tm tprev t c e h0 ho (hn (t, e) (by simp))) t ht'

/-- **C08.** An INVITE client transaction never ends silently: if it is Terminated, the user was
given a final response or a termination report (timeout, transport error). -/
theorem C08_invite_user_told (tm : Timers) (es : List CIEvent) (hw : ∀ e ∈ es, e.WellFormed)
    (h : (run CI.step (CI.new tm) es).1.state = .terminated) :
    (∃ r ∈ CIAction.delivered (outputs (run CI.step (CI.new tm) es).2), 200 ≤ r.code) ∨
    (∃ why, CIAction.terminate why ∈ outputs (run CI.step (CI.new tm) es).2) := by
  suffices ∀ (s : CI), (run CI.step s es).1.state = .completed ∨
      (run CI.step s es).1.state = .terminated →
      (s.state = .completed ∨ s.state = .terminated) ∨
      (∃ r ∈ CIAction.delivered (outputs (run CI.step s es).2), 200 ≤ r.code) ∨
      (∃ why, CIAction.terminate why ∈ outputs (run CI.step s es).2) by
    simpa [CI.new] using this (CI.new tm) (Or.inr h)
  clear h
  induction es with
  | nil => intro s hs; exact Or.inl hs
  | cons e es ih =>
    intro s hs
    have hstep : ∀ (s : CI), (CI.step s e).1.state = .completed ∨ (CI.step s e).1.state = .terminated →
        (s.state = .completed ∨ s.state = .terminated) ∨
        (∃ r ∈ CIAction.delivered (CI.step s e).2, 200 ≤ r.code) ∨
        (∃ why, CIAction.terminate why ∈ (CI.step s e).2) := by
      intro s
      have := hw e (by simp)
      revert this
      clear hw ih hs
      ci_cases s e <;> (repeat' split) <;> simp_all [CIAction.delivered, CIEvent.WellFormed]
    simp only [run_cons, outputs_cons, ci_delivered_append, List.mem_append] at hs ⊢
    rcases ih (fun e' he' => hw e' (by simp [he'])) _ hs with h | ⟨r, h, hc⟩ | ⟨y, h⟩
    · rcases hstep s h with h | ⟨r, h, hc⟩ | ⟨y, h⟩
      · exact Or.inl h
      · exact Or.inr (Or.inl ⟨r, Or.inl h, hc⟩)
      · exact Or.inr (Or.inr ⟨y, Or.inl h⟩)
    · exact Or.inr (Or.inl ⟨r, Or.inr h, hc⟩)
    · exact Or.inr (Or.inr ⟨y, Or.inr h⟩)

/-- **C08.** The same for a non-INVITE client transaction. -/
theorem C08_noninvite_user_told (tm : Timers) (es : List CNEvent) (hw : ∀ e ∈ es, e.WellFormed)
    (h : (run CN.step (CN.new tm) es).1.state = .terminated) :
    (∃ r ∈ CNAction.delivered (outputs (run CN.step (CN.new tm) es).2), 200 ≤ r.code) ∨
    (∃ why, CNAction.terminate why ∈ outputs (run CN.step (CN.new tm) es).2) := by
  suffices ∀ (s : CN), (run CN.step s es).1.state = .completed ∨
      (run CN.step s es).1.state = .terminated →
      (s.state = .completed ∨ s.state = .terminated) ∨
      (∃ r ∈ CNAction.delivered (outputs (run CN.step s es).2), 200 ≤ r.code) ∨
      (∃ why, CNAction.terminate why ∈ outputs (run CN.step s es).2) by
    simpa [CN.new] using this (CN.new tm) (Or.inr h)
  clear h
  induction es with
  | nil => intro s hs; exact Or.inl hs
  | cons e es ih =>
    intro s hs
    have hstep : ∀ (s : CN), (CN.step s e).1.state = .completed ∨ (CN.step s e).1.state = .terminated →
        (s.state = .completed ∨ s.state = .terminated) ∨
        (∃ r ∈ CNAction.delivered (CN.step s e).2, 200 ≤ r.code) ∨
        (∃ why, CNAction.terminate why ∈ (CN.step s e).2) := by
      intro s
      have := hw e (by simp)
      revert this
      clear hw ih hs
      cn_cases s e <;> (repeat' split) <;> simp_all [CNAction.delivered, CNEvent.WellFormed]
    simp only [run_cons, outputs_cons, cn_delivered_append, List.mem_append] at hs ⊢
    rcases ih (fun e' he' => hw e' (by simp [he'])) _ hs with h | ⟨r, h, hc⟩ | ⟨y, h⟩
    · rcases hstep s h with h | ⟨r, h, hc⟩ | ⟨y, h⟩
      · exact Or.inl h
      · exact Or.inr (Or.inl ⟨r, Or.inl h, hc⟩)
      · exact Or.inr (Or.inr ⟨y, Or.inl h⟩)
    · exact Or.inr (Or.inl ⟨r, Or.inr h, hc⟩)
    · exact Or.inr (Or.inr ⟨y, Or.inr h⟩)

/-- C08: a timeout really is reported. -/
example : outputs (run CI.step (CI.new exUdp) [.sendInvite exInvite, .provisional ex180, .timer .B]).2
    = [.transmit exInvite.bytes, .schedule .A 500, .schedule .B 32000, .cancel .A, .deliver ex180,
       .cancel .A, .terminate "Timer B expired"] := by decide

/-- C08: a history meeting the hypotheses that is still alive just before the bound. -/
example :
    let c := timedStep CI.step CIAction.timerEff CIEvent.fired 0 (CI.new exTcp, fun _ => none)
      (CIEvent.sendInvite exInvite)
    Timely CI.step CIAction.timerEff CIEvent.fired c 0 [(100, .provisional ex180)] ∧
    (timedRun CI.step CIAction.timerEff CIEvent.fired c [(100, .provisional ex180)]).2.onTime 32000 ∧
    (timedRun CI.step CIAction.timerEff CIEvent.fired c [(100, .provisional ex180)]).1.state = .proceeding := by
  exact ⟨⟨by decide, Armed.onTime_of_check _ _ (by decide), trivial⟩,
    Armed.onTime_of_check _ _ (by decide), by decide⟩

end Siphon.Fsm
