import Verif.Fsm.PropsClient
/-!
# Server transactions: C05, C06, C07 (server part), C09
-/

set_option linter.unusedSimpArgs false

namespace Siphon.Fsm

/-! ## C05 -/

/-- **C05.** After the user has submitted a final response to a live non-INVITE server
transaction, every byte string it ever sends again is that response: a second final response
and late provisional responses are never sent. -/
theorem C05_only_first_final (tm : Timers) (pre post : List SNEvent) (r : Resp)
    (hlive : (run SN.step (SN.new tm) pre).1.state ∈ [SNState.trying, SNState.proceeding]) :
    let a := SN.step (run SN.step (SN.new tm) pre).1 (.sendFinal r)
    SAction.sent a.2 = [r.bytes] ∧
    ∀ b ∈ SAction.sent (outputs (run SN.step a.1 post).2), b = r.bytes := by
  intro a
  have ha : SAction.sent a.2 = [r.bytes] ∧ 2 ≤ a.1.state.rank ∧ a.1.lastResponse = some r.bytes := by
    show SAction.sent (SN.step _ _).2 = [r.bytes] ∧ 2 ≤ (SN.step _ _).1.state.rank ∧
      (SN.step _ _).1.lastResponse = some r.bytes
    revert hlive
    generalize (run SN.step (SN.new tm) pre).1 = s
    obtain ⟨st, tm', lr⟩ := s
    cases st <;> simp [SN.step, SN.handleFinal, SAction.sent, SNState.rank]
  refine ⟨ha.1, ?_⟩
  have hstep : ∀ (s : SN) (e : SNEvent), 2 ≤ s.state.rank ∧ s.lastResponse = some r.bytes →
      (2 ≤ (SN.step s e).1.state.rank ∧ (SN.step s e).1.lastResponse = some r.bytes) ∧
      ∀ b ∈ SAction.sent (SN.step s e).2, b = r.bytes := by
    intro s e
    sn_cases s e <;> (repeat' split) <;> simp_all [SAction.sent, SNState.rank]
  have := run_outputs_empty (fun l => (SAction.sent l).filter (fun b => decide (b ≠ r.bytes)))
    (fun a b => by simp [s_sent_append]) rfl
    (fun s : SN => 2 ≤ s.state.rank ∧ s.lastResponse = some r.bytes) (fun _ => True)
    (fun s e _ h => (hstep s e h).1) (fun s e _ h => by
      rw [List.filter_eq_nil_iff]
      intro b hb
      simpa using (hstep s e h).2 b hb) a.1 post (fun _ _ => trivial) ha.2
  intro b hb
  rw [List.filter_eq_nil_iff] at this
  simpa using this b hb

/-- **C05.** A retransmitted request is answered with the bytes last sent, exactly once per
retransmission, from the first response until termination; before any response, and after
termination, with nothing. It never changes the transaction. -/
theorem C05_retransmission_answer (tm : Timers) (pre : List SNEvent) :
    let s := (run SN.step (SN.new tm) pre).1
    let hist := SAction.sent (outputs (run SN.step (SN.new tm) pre).2)
    (SN.step s .retransmit).1 = s ∧
    (SN.step s .retransmit).2 =
      (if s.state = .terminated then [] else
        match hist.getLast? with
        | some b => [.transmit b]
        | none => []) := by
  intro s hist
  have hl : s.lastResponse = hist.getLast? := by
    have := sn_last_run (SN.new tm) pre [] rfl
    simpa using this
  have ht : s.state = .trying → s.lastResponse = none := by
    have : ∀ (s : SN) (e : SNEvent), (s.state = .trying → s.lastResponse = none) →
        ((SN.step s e).1.state = .trying → (SN.step s e).1.lastResponse = none) := by
      intro s e
      sn_cases s e <;> (repeat' split) <;> simp_all
    exact run_inv (fun s : SN => s.state = .trying → s.lastResponse = none) this _ _
      (by simp [SN.new])
  rw [← hl]
  revert ht
  clear hl
  generalize s = s
  obtain ⟨st, tm', lr⟩ := s
  cases st <;> cases lr <;> simp [SN.step, SN.onRetransmit]

example : SAction.sent (outputs (run SN.step (SN.new exUdp)
    [.receiveRequest, .sendProvisional ex180, .retransmit, .sendFinal ex200, .sendFinal ex486,
     .sendProvisional ex180, .retransmit, .retransmit, .timer .J, .retransmit]).2)
    = [ex180.bytes, ex180.bytes, ex200.bytes, ex200.bytes, ex200.bytes] := by decide

/-! ## C06 -/

theorem si_quiet_step (s : SI) (e : SIEvent) (h : 2 ≤ s.state.rank) (he : ∀ r, e ≠ .sendFinal r) :
    2 ≤ (SI.step s e).1.state.rank ∧ SAction.sent (SI.step s e).2 = [] := by
  revert h he
  si_cases s e <;> (repeat' split) <;> simp_all [SAction.sent, SIState.rank]

theorem si_term_step (s : SI) (e : SIEvent) (h : s.state = .terminated) :
    (SI.step s e).1.state = .terminated ∧ SAction.sent (SI.step s e).2 = [] ∧
      ∀ t, SAction.armedWith t (SI.step s e).2 = [] := by
  revert h
  si_cases s e <;> (repeat' split) <;> simp_all [SAction.sent, SAction.armedWith]

/-- **C06.** Submitting a 2xx sends it once (if the transaction lives) and afterwards the
transaction never sends anything again: 2xx responses are not retransmitted here. -/
theorem C06_2xx_never_retransmitted (tm : Timers) (pre post : List SIEvent) (r : Resp)
    (h2 : 200 ≤ r.code ∧ r.code ≤ 299) :
    let a := SI.step (run SI.step (SI.new tm) pre).1 (.sendFinal r)
    a.1.state = .terminated ∧
    ((run SI.step (SI.new tm) pre).1.state ≠ .terminated → SAction.sent a.2 = [r.bytes]) ∧
    SAction.sent (outputs (run SI.step a.1 post).2) = [] := by
  intro a
  have ht : a.1.state = .terminated ∧
    ((run SI.step (SI.new tm) pre).1.state ≠ .terminated → SAction.sent a.2 = [r.bytes]) := by
    show (SI.step _ _).1.state = _ ∧ (_ → SAction.sent (SI.step _ _).2 = [r.bytes])
    generalize (run SI.step (SI.new tm) pre).1 = s
    obtain ⟨st, tm', gi, lr, lf⟩ := s
    cases st <;> simp [SI.step, SI.sendFinal, Resp.is2xx, h2, SAction.sent]
  refine ⟨ht.1, ht.2, ?_⟩
  exact run_outputs_empty _ s_sent_append rfl (fun s : SI => s.state = .terminated) (fun _ => True)
    (fun s e _ h => (si_term_step s e h).1) (fun s e _ h => (si_term_step s e h).2.1)
    _ _ (fun _ _ => trivial) ht.1

theorem si_lastFinal_snoc (es : List SIEvent) (e : SIEvent) :
    SIEvent.lastFinal (es ++ [e]) =
      (match e with | .sendFinal r => some r | _ => SIEvent.lastFinal es) := by
  induction es with
  | nil => cases e <;> simp [SIEvent.lastFinal]
  | cons x xs ih =>
    simp only [List.cons_append, SIEvent.lastFinal, ih]
    cases e <;> simp

/-- in Completed the stored final is the user's last one, and it is not 2xx -/
theorem si_completed_final (tm : Timers) (pre : List SIEvent)
    (h : (run SI.step (SI.new tm) pre).1.state = .completed) :
    ∃ r, SIEvent.lastFinal pre = some r ∧ r.is2xx = false ∧
      (run SI.step (SI.new tm) pre).1.lastFinal = some r.bytes ∧
      (run SI.step (SI.new tm) pre).1.lastResponse = some r.bytes := by
  suffices ∀ n (pre : List SIEvent), pre.length = n →
      (run SI.step (SI.new tm) pre).1.state = .completed →
      ∃ r, SIEvent.lastFinal pre = some r ∧ r.is2xx = false ∧
      (run SI.step (SI.new tm) pre).1.lastFinal = some r.bytes ∧
      (run SI.step (SI.new tm) pre).1.lastResponse = some r.bytes from this _ pre rfl h
  clear h pre
  intro n
  induction n with
  | zero =>
    intro pre hl h
    rw [List.length_eq_zero_iff] at hl
    subst hl
    simp [run, SI.new] at h
  | succ n ih =>
    intro pre hl h
    rcases List.eq_nil_or_concat pre with rfl | ⟨xs, e, rfl⟩
    · simp at hl
    have hl' : xs.length = n := by simpa using hl
    have ih := ih xs hl'
    simp only [List.concat_eq_append] at h ⊢
    rw [run_snoc_fst] at h
    rw [si_lastFinal_snoc, run_snoc_fst]
    revert ih h
    generalize (run SI.step (SI.new tm) xs).1 = s
    generalize SIEvent.lastFinal xs = lf0
    si_cases s e <;> (repeat' split) <;> simp_all

/-- **C06.** Whatever a timer makes the transaction send is the user's latest final response,
and that is not a 2xx. -/
theorem C06_timer_sends_latest_final (tm : Timers) (pre : List SIEvent) (t : Timer) (b : Bytes)
    (h : b ∈ SAction.sent (SI.step (run SI.step (SI.new tm) pre).1 (.timer t)).2) :
    t = .G ∧ ∃ r, SIEvent.lastFinal pre = some r ∧ ¬ (200 ≤ r.code ∧ r.code ≤ 299) ∧ b = r.bytes := by
  have hc := si_completed_final tm pre
  revert h hc
  generalize (run SI.step (SI.new tm) pre).1 = s
  generalize SIEvent.lastFinal pre = lf0
  obtain ⟨st, tm', gi, lr, lf⟩ := s
  cases st <;> cases t <;>
    simp only [SI.step, SI.handleTimerG, SI.handleTimerH, SI.handleTimerI] <;>
    (repeat' split) <;> simp_all [SAction.sent, Resp.is2xx]

/-- **C06.** Once the ACK has been consumed in Completed, nothing is sent any more unless the
user itself submits a new final response. -/
theorem C06_silent_after_ack (tm : Timers) (pre post : List SIEvent)
    (h : (run SI.step (SI.new tm) pre).1.state = .completed) (hp : SIEvent.noFinal post) :
    let s := (run SI.step (SI.new tm) (pre ++ [.ack])).1
    SAction.sent (outputs (run SI.step s post).2) = [] := by
  intro s
  have hs : 2 ≤ s.state.rank := by
    show 2 ≤ (run SI.step (SI.new tm) (pre ++ [.ack])).1.state.rank
    rw [run_snoc_fst]
    revert h
    generalize (run SI.step (SI.new tm) pre).1 = s
    obtain ⟨st, tm', gi, lr, lf⟩ := s
    rintro rfl
    simp [SI.step, SI.handleAck, SIState.rank]
  exact run_outputs_empty _ s_sent_append rfl (fun s : SI => 2 ≤ s.state.rank)
    (fun e => ∀ r : Resp, e ≠ SIEvent.sendFinal r)
    (fun s e he h => (si_quiet_step s e h he).1) (fun s e he h => (si_quiet_step s e h he).2)
    _ _ hp hs

/-- interval bookkeeping of Timer G -/
theorem si_interval_step (s : SI) (e : SIEvent) (he : ∀ r, e ≠ .sendFinal r)
    (hu : s.timers.transport.isReliable = false) (ht1 : s.timers.t1 ≠ 0)
    (hlf : s.lastFinal.isSome)
    (h : (SI.step s e).1.state = .completed) :
    s.state = .completed ∧ (SI.step s e).1.lastFinal = s.lastFinal ∧
    (SI.step s e).1.gInterval = (if e = .timer .G then
        min (s.gInterval * 2) s.timers.t2 else s.gInterval) := by
  revert h hu ht1 he hlf
  si_cases s e <;> (repeat' split) <;> simp_all [Timers.duration]

theorem si_completed_back (s : SI) (e : SIEvent) (he : ∀ r, e ≠ .sendFinal r)
    (h : (SI.step s e).1.state = .completed) : s.state = .completed := by
  revert h he
  si_cases s e <;> (repeat' split) <;> simp_all

theorem si_completed_back_run (s : SI) (es : List SIEvent) (he : SIEvent.noFinal es)
    (h : (run SI.step s es).1.state = .completed) : s.state = .completed := by
  induction es generalizing s with
  | nil => exact h
  | cons e es ih =>
    exact si_completed_back s e (he e (by simp))
      (ih _ (fun e' he' => he e' (by simp [he'])) h)

theorem si_interval_run (s : SI) (es : List SIEvent) (n : Nat) (he : SIEvent.noFinal es)
    (hu : s.timers.transport.isReliable = false) (ht1 : s.timers.t1 ≠ 0)
    (hlf : s.lastFinal.isSome)
    (hi : s.gInterval = min (2 ^ n * s.timers.t1) s.timers.t2 ∨ (n = 0 ∧ s.gInterval = s.timers.t1))
    (h : (run SI.step s es).1.state = .completed) :
    let a := (run SI.step s es).1.gInterval
    let m := n + es.count (.timer .G)
    a = min (2 ^ m * s.timers.t1) s.timers.t2 ∨ (m = 0 ∧ a = s.timers.t1) := by
  induction es generalizing s n with
  | nil => simpa [run] using hi
  | cons e es ih =>
    rw [run_cons] at h ⊢
    have he' : SIEvent.noFinal es := fun e' he' => he e' (by simp [he'])
    have hc := si_completed_back_run _ _ he' h
    obtain ⟨_, hl, hs⟩ := si_interval_step s e (he e (by simp)) hu ht1 hlf hc
    have ht := si_timers s e
    by_cases hee : e = .timer .G
    · subst hee
      rw [if_pos rfl, capped_double _ n _ _ hi] at hs
      have := ih (SI.step s (.timer .G)).1 (n + 1) he' (by rw [ht]; exact hu)
        (by rw [ht]; exact ht1) (by rw [hl]; exact hlf) (by rw [ht]; exact Or.inl hs) h
      rw [ht] at this
      simpa [Nat.add_assoc, Nat.add_comm 1] using this
    · rw [if_neg hee] at hs
      have := ih (SI.step s e).1 n he' (by rw [ht]; exact hu) (by rw [ht]; exact ht1)
        (by rw [hl]; exact hlf) (by rw [ht, hs]; exact hi) h
      rw [ht] at this
      simpa [List.count_cons, hee] using this

theorem si_lastFinal_split (pre mid : List SIEvent) (r : Resp) (hm : SIEvent.noFinal mid) :
    SIEvent.lastFinal (pre ++ .sendFinal r :: mid) = some r := by
  have hmid : SIEvent.lastFinal mid = none := by
    induction mid with
    | nil => rfl
    | cons e es ih =>
      have := ih (fun e' he' => hm e' (by simp [he']))
      cases e with
      | sendFinal q => exact absurd rfl (hm (.sendFinal q) (by simp) q)
      | _ => simp [SIEvent.lastFinal, this]
  induction pre with
  | nil => simp [SIEvent.lastFinal, hmid]
  | cons x xs ih => simp [SIEvent.lastFinal, ih]

/-- **C06.** On UDP, as long as the transaction stays in Completed after a non-2xx final `r`, the
`k`-th firing of Timer G re-sends `r` and re-arms with `min (2^k T1) T2`. -/
theorem C06_timerG_schedule (tm : Timers) (pre mid : List SIEvent) (r : Resp)
    (hu : tm.transport = .udp) (ht : 0 < tm.t1) (hm : SIEvent.noFinal mid)
    (hc : (run SI.step (SI.new tm) (pre ++ .sendFinal r :: mid)).1.state = .completed) :
    (SI.step (run SI.step (SI.new tm) (pre ++ .sendFinal r :: mid)).1 (.timer .G)).2 =
      [.transmit r.bytes,
       .schedule .G (min (2 ^ (mid.count (.timer .G) + 1) * tm.t1) tm.t2)] := by
  have hrel : tm.transport.isReliable = false := by rw [hu]; rfl
  obtain ⟨r', hr', hn2, hf, _⟩ := si_completed_final tm _ hc
  have hrr : SIEvent.lastFinal (pre ++ .sendFinal r :: mid) = some r := by
    exact si_lastFinal_split pre mid r hm
  rw [hrr] at hr'
  cases hr'
  have htm := si_run_timers (SI.new tm) (pre ++ .sendFinal r :: mid)
  have hpre := si_run_timers (SI.new tm) pre
  have hsplit : run SI.step (SI.new tm) (pre ++ .sendFinal r :: mid) =
      ((run SI.step (SI.step (run SI.step (SI.new tm) pre).1 (.sendFinal r)).1 mid).1,
        (run SI.step (SI.new tm) (pre ++ .sendFinal r :: mid)).2) := by
    rw [run_append, run_cons]
  have hc0 : (SI.step (run SI.step (SI.new tm) pre).1 (.sendFinal r)).1.state = .completed := by
    rw [hsplit] at hc
    exact si_completed_back_run _ _ hm hc
  have hint := si_interval_run (SI.step (run SI.step (SI.new tm) pre).1 (.sendFinal r)).1 mid 0 hm
    (by rw [si_timers, hpre]; exact hrel) (by rw [si_timers, hpre]; simp only [SI.new]; omega)
    (by
      revert hc0
      generalize (run SI.step (SI.new tm) pre).1 = s
      obtain ⟨st, tm', gi, lr, lf⟩ := s
      cases st <;> simp [SI.step, SI.sendFinal, hn2])
    (by
      right
      refine ⟨rfl, ?_⟩
      revert hc0 hpre
      generalize (run SI.step (SI.new tm) pre).1 = s
      obtain ⟨st, tm', gi, lr, lf⟩ := s
      intro htm' hc0
      simp only [SI.new] at htm'
      subst htm'
      revert hc0
      cases st <;> simp [SI.step, SI.sendFinal, hn2, Timers.duration, SI.new, hrel])
    (by rw [hsplit] at hc; exact hc)
  have hd := capped_double _ _ _ _ hint
  rw [si_timers, hpre] at hd
  have hgi : (run SI.step (SI.new tm) (pre ++ .sendFinal r :: mid)).1.gInterval =
      (run SI.step (SI.step (run SI.step (SI.new tm) pre).1 (.sendFinal r)).1 mid).1.gInterval := by
    rw [hsplit]
  rw [← hgi] at hd
  clear hint hc0 hsplit hgi
  revert hd htm hc hf
  generalize (run SI.step (SI.new tm) (pre ++ .sendFinal r :: mid)).1 = s
  obtain ⟨st, tm', gi, lr, lf⟩ := s
  intro hc htm hd hf
  simp only [SI.new] at htm hd hf
  simp only at hc
  have ht' : tm.t1 ≠ 0 := by omega
  simp_all [SI.step, SI.handleTimerG, Timers.duration]

/-- **C06.** Over TCP or TLS Timer G is never armed and no timer sends anything. -/
theorem C06_reliable (tm : Timers) (hr : tm.transport ≠ .udp) (es : List SIEvent) :
    SAction.armedWith .G (outputs (run SI.step (SI.new tm) es).2) = [] ∧
    ∀ t, SAction.sent (SI.step (run SI.step (SI.new tm) es).1 (.timer t)).2 = [] := by
  have hrel : tm.transport.isReliable = true := by
    cases h : tm.transport <;> simp_all [Transport.isReliable]
  constructor
  · refine run_outputs_empty _ (s_armed_append .G) rfl (fun s : SI => s.timers = tm) (fun _ => True)
      (fun s e _ h => by rw [si_timers, h]) ?_ _ _ (fun _ _ => trivial) rfl
    intro s e _ h
    revert h
    si_cases s e <;> (repeat' split) <;> simp_all [SAction.armedWith, Timers.duration] <;> grind
  · intro t
    have htm := si_run_timers (SI.new tm) es
    revert htm
    generalize (run SI.step (SI.new tm) es).1 = s
    obtain ⟨st, tm', gi, lr, lf⟩ := s
    intro htm
    simp only [SI.new] at htm
    subst htm
    cases st <;> cases t <;>
      simp [SI.step, SI.handleTimerG, SI.handleTimerH, SI.handleTimerI, SAction.sent,
        Timers.duration, hrel]

/-- C06: a retransmitted INVITE in Completed is answered with the latest final; in Confirmed and
Terminated with nothing. -/
theorem C06_retransmission_answer (tm : Timers) (pre : List SIEvent) :
    let s := (run SI.step (SI.new tm) pre).1
    (SI.step s .retransmit).1 = s ∧
    (s.state = .completed → ∃ r, SIEvent.lastFinal pre = some r ∧
      SAction.sent (SI.step s .retransmit).2 = [r.bytes]) ∧
    (s.state = .confirmed ∨ s.state = .terminated → SAction.sent (SI.step s .retransmit).2 = []) := by
  intro s
  have hc := si_completed_final tm pre
  revert hc
  show ((s.state = .completed → _) → _)
  generalize hs : (run SI.step (SI.new tm) pre).1 = s0 at *
  have : s = s0 := hs
  rw [this]
  clear this hs s
  obtain ⟨st, tm', gi, lr, lf⟩ := s0
  cases st <;> cases lr <;> simp [SI.step, SI.onRetransmit, SAction.sent]
  · rintro r hr - - rfl
    exact ⟨r, hr, rfl⟩

example : (run SI.step (SI.new exUdp) ([.receiveInvite, .sendProvisional ex180] ++
    .sendFinal ex486 :: [.timer .G, .timer .G, .retransmit])).1.state = .completed := by decide
example : SAction.sent (outputs (run SI.step (SI.new exUdp)
    [.receiveInvite, .sendProvisional ex180, .sendFinal ex486, .timer .G, .retransmit, .ack,
     .timer .G, .retransmit, .timer .I]).2)
    = [ex180.bytes, ex486.bytes, ex486.bytes, ex486.bytes] := by decide

/-! ## C07, server side -/

/-- **C07 (server non-INVITE).** -/
theorem C07_server_noninvite_forward (tm : Timers) (pre post : List SNEvent) :
    (run SN.step (SN.new tm) pre).1.state.rank ≤
      (run SN.step (SN.new tm) (pre ++ post)).1.state.rank := by
  rw [run_append]; exact sn_rank_run _ _

theorem C07_server_noninvite_terminated (tm : Timers) (pre post : List SNEvent)
    (h : (run SN.step (SN.new tm) pre).1.state = .terminated) :
    let r := run SN.step (run SN.step (SN.new tm) pre).1 post
    r.1.state = .terminated ∧ SAction.sent (outputs r.2) = [] ∧
    (∀ t, SAction.armedWith t (outputs r.2) = []) := by
  intro r
  have hst : ∀ (s : SN) (e : SNEvent), True → s.state = .terminated →
      (SN.step s e).1.state = .terminated := by
    intro s e _
    sn_cases s e <;> (repeat' split) <;> simp_all
  refine ⟨run_inv _ (fun s e => hst s e trivial) _ _ h, ?_, ?_⟩
  · refine run_outputs_empty _ s_sent_append rfl (fun s => s.state = .terminated) (fun _ => True)
      hst ?_ _ _ (fun _ _ => trivial) h
    intro s e _
    sn_cases s e <;> (repeat' split) <;> simp_all [SAction.sent]
  · intro t
    refine run_outputs_empty _ (s_armed_append t) rfl (fun s => s.state = .terminated)
      (fun _ => True) hst ?_ _ _ (fun _ _ => trivial) h
    intro s e _
    sn_cases s e <;> (repeat' split) <;> simp_all [SAction.armedWith]

/-- **C07 (server INVITE), terminated.** -/
theorem C07_server_invite_terminated (tm : Timers) (pre post : List SIEvent)
    (h : (run SI.step (SI.new tm) pre).1.state = .terminated) :
    let r := run SI.step (run SI.step (SI.new tm) pre).1 post
    r.1.state = .terminated ∧ SAction.sent (outputs r.2) = [] ∧
    (∀ t, SAction.armedWith t (outputs r.2) = []) := by
  intro r
  refine ⟨run_inv (fun s : SI => s.state = .terminated) (fun s e h => (si_term_step s e h).1) _ _ h,
    ?_, ?_⟩
  · exact run_outputs_empty _ s_sent_append rfl (fun s : SI => s.state = .terminated) (fun _ => True)
      (fun s e _ h => (si_term_step s e h).1) (fun s e _ h => (si_term_step s e h).2.1)
      _ _ (fun _ _ => trivial) h
  · intro t
    exact run_outputs_empty _ (s_armed_append t) rfl (fun s : SI => s.state = .terminated)
      (fun _ => True) (fun s e _ h => (si_term_step s e h).1)
      (fun s e _ h => (si_term_step s e h).2.2 t) _ _ (fun _ _ => trivial) h

/-- **C07 (server INVITE), partial.** States move forward as long as the user submits no further
final response after one that was already submitted. Missing: the code accepts a second final
in Confirmed, see `C07_server_invite_goes_back`. -/
theorem C07_server_invite_forward_partial (tm : Timers) (pre post : List SIEvent)
    (hp : SIEvent.noFinal post ∨ (run SI.step (SI.new tm) pre).1.state = .proceeding ∧
      ∃ a r b, post = a ++ .sendFinal r :: b ∧ SIEvent.noFinal a ∧ SIEvent.noFinal b) :
    (run SI.step (SI.new tm) pre).1.state.rank ≤
      (run SI.step (SI.new tm) (pre ++ post)).1.state.rank := by
  have hstep : ∀ (s : SI) (e : SIEvent), (∀ r, e ≠ .sendFinal r) →
      s.state.rank ≤ (SI.step s e).1.state.rank := by
    intro s e
    si_cases s e <;> (repeat' split) <;> simp_all [SIState.rank]
  have hrun : ∀ (es : List SIEvent) (s : SI), SIEvent.noFinal es →
      s.state.rank ≤ (run SI.step s es).1.state.rank := by
    intro es
    induction es with
    | nil => intro s _; exact Nat.le_refl _
    | cons e es ih =>
      intro s he
      exact Nat.le_trans (hstep s e (he e (by simp)))
        (ih _ (fun e' he' => he e' (by simp [he'])))
  rw [run_append]
  rcases hp with hp | ⟨h0, _⟩
  · exact hrun _ _ hp
  · rw [h0]; exact Nat.zero_le _

/-- C07 fails for the INVITE server: a second final response submitted after the ACK moves the
transaction from Confirmed back to Completed. -/
theorem C07_server_invite_goes_back :
    ∃ (tm : Timers) (pre post : List SIEvent),
      (run SI.step (SI.new tm) (pre ++ post)).1.state.rank <
        (run SI.step (SI.new tm) pre).1.state.rank :=
  ⟨exUdp, [.receiveInvite, .sendFinal ex486, .ack], [.sendFinal ex486], by decide⟩

/-- C07: that is the only way back: one step never lowers the rank except a final response
submitted in Confirmed. -/
theorem C07_server_invite_only_regression (tm : Timers) (pre : List SIEvent) (e : SIEvent)
    (h : (run SI.step (SI.new tm) (pre ++ [e])).1.state.rank <
      (run SI.step (SI.new tm) pre).1.state.rank) :
    (run SI.step (SI.new tm) pre).1.state = .confirmed ∧
      ∃ r, e = .sendFinal r ∧ ¬ (200 ≤ r.code ∧ r.code ≤ 299) := by
  rw [run_snoc_fst] at h
  revert h
  generalize (run SI.step (SI.new tm) pre).1 = s
  si_cases s e <;> (repeat' split) <;> simp_all [SIState.rank, Resp.is2xx]

example : (run SI.step (SI.new exUdp) [.sendFinal ex486, .timer .H]).1.state = .terminated := by decide
example : (run SN.step (SN.new exUdp) [.receiveRequest, .sendFinal ex486, .timer .J]).1.state = .terminated := by decide

/-! ## C09 -/

/-- configuration invariant after the final response was submitted at `t0` -/
def SN.Bounded (tm : Timers) (t0 : Nat) (c : SN × Armed) : Prop :=
  c.1.timers = tm ∧ match c.1.state with
  | .trying | .proceeding => False
  | .completed => c.2 .J = some (t0 + tm.duration .J)
  | .terminated => True

theorem SN.bounded_step (tm : Timers) (t0 now : Nat) (c : SN × Armed) (e : SNEvent)
    (hc : SN.Bounded tm t0 c) :
    SN.Bounded tm t0 (timedStep SN.step SAction.timerEff SNEvent.fired now c e) := by
  obtain ⟨s, m⟩ := c
  revert hc
  unfold SN.Bounded timedStep
  sn_cases s e <;> (try simp only [SNEvent.fired]) <;> (repeat' split) <;>
    simp_all [SAction.timerEff, TimerEff.apply, Armed.set]

/-- **C09 (non-INVITE server).** If the final response is submitted at `t0` to a live transaction
and timers fire on time, then at every later moment the transaction is Terminated or at most
64 T1 (UDP; 0 on reliable transports) has passed. -/
theorem C09_noninvite_server_terminates (tm : Timers) (pre : List SNEvent) (m : Armed)
    (hlive : (run SN.step (SN.new tm) pre).1.state ∈ [SNState.trying, SNState.proceeding])
    (t0 : Nat) (r : Resp) (h : List (Nat × SNEvent)) (now : Nat) (c : SN × Armed)
    (hc : c = timedStep SN.step SAction.timerEff SNEvent.fired t0
      ((run SN.step (SN.new tm) pre).1, m) (.sendFinal r))
    (hend : (timedRun SN.step SAction.timerEff SNEvent.fired c h).2.onTime now) :
    (timedRun SN.step SAction.timerEff SNEvent.fired c h).1.state = .terminated ∨
    now ≤ t0 + (if tm.transport = .udp then 64 * tm.t1 else 0) := by
  have hdur : tm.duration .J = (if tm.transport = .udp then 64 * tm.t1 else 0) := by
    cases hh : tm.transport <;> simp [Timers.duration, Transport.isReliable, hh, Nat.mul_comm]
  have htm := sn_run_timers (SN.new tm) pre
  have h0 : SN.Bounded tm t0 c := by
    subst hc
    revert hlive htm
    generalize (run SN.step (SN.new tm) pre).1 = s
    obtain ⟨st, tm', lr⟩ := s
    intro hlive htm
    simp only [SN.new] at htm
    subst htm
    cases st <;> simp_all [SN.Bounded, timedStep, SN.step, SN.handleFinal, SNEvent.fired,
      SAction.timerEff, TimerEff.apply, Armed.set]
  clear hc
  have hb : SN.Bounded tm t0 (timedRun SN.step SAction.timerEff SNEvent.fired c h) := by
    clear hend
    induction h generalizing c with
    | nil => exact h0
    | cons x xs ih => obtain ⟨t, e⟩ := x; exact ih _ (SN.bounded_step tm t0 t c e h0)
  revert hb hend
  generalize timedRun SN.step SAction.timerEff SNEvent.fired c h = c'
  obtain ⟨⟨st, tm', lr⟩, m'⟩ := c'
  intro hend hb
  obtain ⟨_, hb⟩ := hb
  rw [← hdur]
  cases st
  · exact hb.elim
  · exact hb.elim
  · right; exact hend .J _ hb
  · left; rfl

/-- configuration invariant after a non-2xx final response was submitted at `t0` -/
def SI.Bounded (tm : Timers) (t0 : Nat) (c : SI × Armed) : Prop :=
  c.1.timers = tm ∧ match c.1.state with
  | .proceeding => False
  | .completed => c.2 .H = some (t0 + 64 * tm.t1)
  | .confirmed => ∃ d, c.2 .I = some d ∧ d ≤ t0 + 64 * tm.t1 + tm.duration .I
  | .terminated => True

theorem SI.bounded_step (tm : Timers) (t0 now : Nat) (c : SI × Armed) (e : SIEvent)
    (hc : SI.Bounded tm t0 c) (ho : c.2.onTime now) (he : ∀ r, e ≠ .sendFinal r) :
    SI.Bounded tm t0 (timedStep SI.step SAction.timerEff SIEvent.fired now c e) := by
  obtain ⟨s, m⟩ := c
  have hH := ho .H
  revert hc he hH
  clear ho
  unfold SI.Bounded timedStep
  si_cases s e <;> (try simp only [SIEvent.fired]) <;> (repeat' split) <;>
    simp_all [SAction.timerEff, TimerEff.apply, Armed.set] <;> (try omega)

/-- **C09 (INVITE server).** If the last final response the user submits is submitted at `t0` and
timers fire on time, then at every later moment the transaction is Terminated or at most 64 T1
plus the Timer I linger (T4 on UDP) has passed, whether or not an ACK arrives. -/
theorem C09_invite_server_terminates (tm : Timers) (pre : List SIEvent) (m : Armed)
    (t0 : Nat) (r : Resp) (h : List (Nat × SIEvent)) (now : Nat) (c : SI × Armed)
    (hc : c = timedStep SI.step SAction.timerEff SIEvent.fired t0
      ((run SI.step (SI.new tm) pre).1, m) (.sendFinal r))
    (hn : ∀ x ∈ h, ∀ q, x.2 ≠ .sendFinal q)
    (ht : Timely SI.step SAction.timerEff SIEvent.fired c t0 h)
    (hend : (timedRun SI.step SAction.timerEff SIEvent.fired c h).2.onTime now) :
    (timedRun SI.step SAction.timerEff SIEvent.fired c h).1.state = .terminated ∨
    now ≤ t0 + 64 * tm.t1 + (if tm.transport = .udp then tm.t4 else 0) := by
  have hdur : tm.duration .I = (if tm.transport = .udp then tm.t4 else 0) := by
    cases hh : tm.transport <;> simp [Timers.duration, Transport.isReliable, hh]
  have htm := si_run_timers (SI.new tm) pre
  have h0 : SI.Bounded tm t0 c := by
    subst hc
    revert htm
    generalize (run SI.step (SI.new tm) pre).1 = s
    obtain ⟨st, tm', gi, lr, lf⟩ := s
    intro htm
    simp only [SI.new] at htm
    subst htm
    cases st <;> simp only [SI.Bounded, timedStep, SI.step, SI.sendFinal, SIEvent.fired] <;>
      (repeat' split) <;>
      simp_all [SAction.timerEff, TimerEff.apply, Armed.set, Timers.duration, Nat.mul_comm]
  clear hc
  have hb : SI.Bounded tm t0 (timedRun SI.step SAction.timerEff SIEvent.fired c h) := by
    clear hend
    suffices ∀ tp, Timely SI.step SAction.timerEff SIEvent.fired c tp h →
      SI.Bounded tm t0 (timedRun SI.step SAction.timerEff SIEvent.fired c h) from this _ ht
    clear ht
    induction h generalizing c with
    | nil => intro _ _; exact h0
    | cons x xs ih =>
      obtain ⟨t, e⟩ := x
      intro tp ht
      obtain ⟨_, ho, ht'⟩ := ht
      exact ih _ (fun y hy => hn y (by simp [hy]))
        (SI.bounded_step tm t0 t c e h0 ho (hn (t, e) (by simp))) t ht'
  revert hb hend
  generalize timedRun SI.step SAction.timerEff SIEvent.fired c h = c'
  obtain ⟨⟨st, tm', gi, lr, lf⟩, m'⟩ := c'
  intro hend hb
  obtain ⟨_, hb⟩ := hb
  rw [← hdur]
  cases st
  · exact hb.elim
  · right; have := hend .H _ hb; omega
  · right; obtain ⟨d, hd, hle⟩ := hb; have := hend .I _ hd; omega
  · left; rfl

example :
    let c := timedStep SI.step SAction.timerEff SIEvent.fired 7 (SI.new exUdp, fun _ => none)
      (SIEvent.sendFinal ex486)
    Timely SI.step SAction.timerEff SIEvent.fired c 7 [(507, .timer .G), (600, .ack)] ∧
    (timedRun SI.step SAction.timerEff SIEvent.fired c [(507, .timer .G), (600, .ack)]).2.onTime 5600 ∧
    (timedRun SI.step SAction.timerEff SIEvent.fired c [(507, .timer .G), (600, .ack)]).1.state = .confirmed := by
  exact ⟨⟨by decide, Armed.onTime_of_check _ _ (by decide), by decide,
    Armed.onTime_of_check _ _ (by decide), trivial⟩,
    Armed.onTime_of_check _ _ (by decide), by decide⟩

end Siphon.Fsm
