import Verif.Fsm.Spec
/-! Proof internals for the state machine properties. -/

namespace Siphon.Fsm

section Generic
variable {S E A : Type} {step : S → E → S × List A}

theorem run_nil (s : S) : run step s [] = (s, []) := rfl

theorem run_cons (s : S) (e : E) (es : List E) :
    run step s (e :: es) =
      ((run step (step s e).1 es).1, (e, (step s e).2) :: (run step (step s e).1 es).2) := rfl

theorem run_append (s : S) (xs ys : List E) :
    run step s (xs ++ ys) =
      ((run step (run step s xs).1 ys).1,
       (run step s xs).2 ++ (run step (run step s xs).1 ys).2) := by
  induction xs generalizing s with
  | nil => simp [run]
  | cons x xs ih => simp [run, ih]

theorem run_snoc_fst (s : S) (xs : List E) (e : E) :
    (run step s (xs ++ [e])).1 = (step (run step s xs).1 e).1 := by
  simp [run_append, run]

theorem outputs_append (a b : List (E × List A)) :
    outputs (a ++ b) = outputs a ++ outputs b := by simp [outputs]

theorem outputs_cons (a : E × List A) (b : List (E × List A)) :
    outputs (a :: b) = a.2 ++ outputs b := by simp [outputs]

theorem outputs_nil : outputs ([] : List (E × List A)) = [] := rfl

theorem run_inv (P : S → Prop) (h : ∀ s e, P s → P (step s e).1) (s : S) (es : List E)
    (hs : P s) : P (run step s es).1 := by
  induction es generalizing s with
  | nil => exact hs
  | cons e es ih => exact ih _ (h s e hs)

/-- invariant that also needs a property of each event -/
theorem run_inv_ev (P : S → Prop) (Q : E → Prop) (h : ∀ s e, Q e → P s → P (step s e).1)
    (s : S) (es : List E) (hq : ∀ e ∈ es, Q e) (hs : P s) : P (run step s es).1 := by
  induction es generalizing s with
  | nil => exact hs
  | cons e es ih =>
    exact ih _ (fun e' he' => hq e' (by simp [he'])) (h s e (hq e (by simp)) hs)

/-- a list observation that is a homomorphism and vanishes on every step in an
invariant region vanishes on the whole run -/
theorem run_outputs_empty {B : Type} (f : List A → List B)
    (hf : ∀ a b, f (a ++ b) = f a ++ f b) (hf0 : f [] = [])
    (P : S → Prop) (Q : E → Prop) (hinv : ∀ s e, Q e → P s → P (step s e).1)
    (hout : ∀ s e, Q e → P s → f (step s e).2 = [])
    (s : S) (es : List E) (hq : ∀ e ∈ es, Q e) (hs : P s) :
    f (outputs (run step s es).2) = [] := by
  induction es generalizing s with
  | nil => simpa [run, outputs] using hf0
  | cons e es ih =>
    rw [run_cons]
    simp only [outputs_cons, hf]
    rw [hout s e (hq e (by simp)) hs,
      ih _ (fun e' he' => hq e' (by simp [he'])) (hinv s e (hq e (by simp)) hs)]
    rfl

theorem timedRun_append (eff : A → TimerEff) (fired : E → Option Timer)
    (c : S × Armed) (xs ys : List (Nat × E)) :
    timedRun step eff fired c (xs ++ ys) =
      timedRun step eff fired (timedRun step eff fired c xs) ys := by
  induction xs generalizing c with
  | nil => rfl
  | cons x xs ih => obtain ⟨t, e⟩ := x; simp [timedRun, ih]

end Generic

theorem ci_delivered_append (a b : List CIAction) :
    CIAction.delivered (a ++ b) = CIAction.delivered a ++ CIAction.delivered b := by
  induction a with
  | nil => rfl
  | cons x xs ih => cases x <;> simp [CIAction.delivered, ih]

theorem ci_acks_append (a b : List CIAction) :
    CIAction.acks (a ++ b) = CIAction.acks a ++ CIAction.acks b := by
  induction a with
  | nil => rfl
  | cons x xs ih => cases x <;> simp [CIAction.acks, ih]

theorem ci_sent_append (a b : List CIAction) :
    CIAction.sent (a ++ b) = CIAction.sent a ++ CIAction.sent b := by
  induction a with
  | nil => rfl
  | cons x xs ih => cases x <;> simp [CIAction.sent, ih]

theorem ci_armed_append (t : Timer) (a b : List CIAction) :
    CIAction.armedWith t (a ++ b) = CIAction.armedWith t a ++ CIAction.armedWith t b := by
  induction a with
  | nil => rfl
  | cons x xs ih =>
    cases x <;> simp only [List.cons_append, CIAction.armedWith, ih]
    split <;> simp

theorem cn_delivered_append (a b : List CNAction) :
    CNAction.delivered (a ++ b) = CNAction.delivered a ++ CNAction.delivered b := by
  induction a with
  | nil => rfl
  | cons x xs ih => cases x <;> simp [CNAction.delivered, ih]

theorem cn_sent_append (a b : List CNAction) :
    CNAction.sent (a ++ b) = CNAction.sent a ++ CNAction.sent b := by
  induction a with
  | nil => rfl
  | cons x xs ih => cases x <;> simp [CNAction.sent, ih]

theorem cn_armed_append (t : Timer) (a b : List CNAction) :
    CNAction.armedWith t (a ++ b) = CNAction.armedWith t a ++ CNAction.armedWith t b := by
  induction a with
  | nil => rfl
  | cons x xs ih =>
    cases x <;> simp only [List.cons_append, CNAction.armedWith, ih]
    split <;> simp

theorem s_sent_append (a b : List SAction) :
    SAction.sent (a ++ b) = SAction.sent a ++ SAction.sent b := by
  induction a with
  | nil => rfl
  | cons x xs ih => cases x <;> simp [SAction.sent, ih]

theorem s_armed_append (t : Timer) (a b : List SAction) :
    SAction.armedWith t (a ++ b) = SAction.armedWith t a ++ SAction.armedWith t b := by
  induction a with
  | nil => rfl
  | cons x xs ih =>
    cases x <;> simp only [List.cons_append, SAction.armedWith, ih]
    split <;> simp

/-- decidable check of `onTime`, used by the examples -/
def Armed.check (m : Armed) (now : Nat) : Bool :=
  [Timer.T1, .T2, .T4, .A, .B, .C, .D, .E, .F, .G, .H, .I, .J, .K].all
    (fun t => match m t with | some d => decide (now ≤ d) | none => true)

theorem Armed.onTime_of_check (m : Armed) (now : Nat) (h : m.check now = true) :
    m.onTime now := by
  intro t d hd
  simp only [Armed.check, List.all_eq_true] at h
  have := h t (by cases t <;> simp)
  simpa [hd] using this

/-! ### Client INVITE -/

/-- unfolds one step of the client INVITE machine -/
macro "ci_cases" s:ident e:ident : tactic => `(tactic|
  (obtain ⟨st, tm, ai, li⟩ := $s
   cases st <;> cases $e:ident <;>
     (try (rename_i t; cases (t : Timer))) <;>
     simp only [CI.step, CI.handleSendInvite, CI.handleProvisional, CI.handleFinal,
       CI.handleFinal2xx, CI.handleFinalNon2xx, CI.handleTimerA, CI.handleTimerB, CI.handleTimerD,
       CI.handleTransportError]))

theorem ci_timers (s : CI) (e : CIEvent) : (CI.step s e).1.timers = s.timers := by
  ci_cases s e <;> (repeat' split) <;> rfl

theorem ci_run_timers (s : CI) (es : List CIEvent) :
    (run CI.step s es).1.timers = s.timers :=
  run_inv (fun x => x.timers = s.timers) (fun x e h => by rw [ci_timers, h]) s es rfl

theorem ci_rank_step (s : CI) (e : CIEvent) :
    s.state.rank ≤ (CI.step s e).1.state.rank := by
  ci_cases s e <;> (repeat' split) <;> simp_all [CIState.rank]

theorem ci_rank_run (s : CI) (es : List CIEvent) :
    s.state.rank ≤ (run CI.step s es).1.state.rank := by
  induction es generalizing s with
  | nil => exact Nat.le_refl _
  | cons e es ih => exact Nat.le_trans (ci_rank_step s e) (ih _)

theorem ci_not_confirmed_step (s : CI) (e : CIEvent) (h : s.state ≠ .confirmed) :
    (CI.step s e).1.state ≠ .confirmed := by
  revert h
  ci_cases s e <;> (repeat' split) <;> simp_all

theorem ci_not_confirmed (s : CI) (es : List CIEvent) (h : s.state ≠ .confirmed) :
    (run CI.step s es).1.state ≠ .confirmed :=
  run_inv (fun x => x.state ≠ .confirmed) ci_not_confirmed_step s es h

theorem rank_zero (s : CIState) (h : s.rank = 0) : s = .calling := by
  cases s <;> simp_all [CIState.rank]

theorem ci_calling_of_run (s : CI) (es : List CIEvent)
    (h : (run CI.step s es).1.state = .calling) : s.state = .calling := by
  have := ci_rank_run s es
  rw [h] at this
  exact rank_zero _ (Nat.le_zero.mp this)

theorem ci_acks_step (s : CI) (e : CIEvent) (hw : e.WellFormed) :
    CIAction.acks (CI.step s e).2 =
      ((CIAction.delivered (CI.step s e).2).filter (fun r => decide (200 ≤ r.code))).map
        (fun r => (r, r.is2xx)) := by
  revert hw
  ci_cases s e <;> (repeat' split) <;>
    simp_all [CIAction.acks, CIAction.delivered, CIEvent.WellFormed]

theorem ci_acks_run (s : CI) (es : List CIEvent) (hw : ∀ e ∈ es, e.WellFormed) :
    CIAction.acks (outputs (run CI.step s es).2) =
      ((CIAction.delivered (outputs (run CI.step s es).2)).filter
        (fun r => decide (200 ≤ r.code))).map (fun r => (r, r.is2xx)) := by
  induction es generalizing s with
  | nil => rfl
  | cons e es ih =>
    simp only [run_cons, outputs_cons, ci_acks_append, ci_delivered_append, List.filter_append,
      List.map_append]
    rw [ci_acks_step s e (hw e (by simp)), ih _ (fun e' he' => hw e' (by simp [he']))]

/-- in `calling`, what is stored is the last submitted request -/
theorem ci_last_step (s : CI) (e : CIEvent) (h : (CI.step s e).1.state = .calling) :
    s.state = .calling ∧ (CI.step s e).1.lastInvite =
      (match e with | .sendInvite r => some r.bytes | _ => s.lastInvite) := by
  revert h
  ci_cases s e <;> (repeat' split) <;> simp_all

theorem ci_last_run (s : CI) (es : List CIEvent) (h : (run CI.step s es).1.state = .calling) :
    (run CI.step s es).1.lastInvite =
      (match CIEvent.lastSubmitted es with | some r => some r.bytes | none => s.lastInvite) := by
  induction es generalizing s with
  | nil => rfl
  | cons e es ih =>
    rw [run_cons] at h ⊢
    have hc := ci_calling_of_run _ _ h
    obtain ⟨_, h2⟩ := ci_last_step s e hc
    have h3 := ih _ h
    simp only [h3, h2, CIEvent.lastSubmitted]
    cases CIEvent.lastSubmitted es <;> cases e <;> rfl

/-- After the start, `calling` means nothing has been heard. -/
theorem ci_settled_step (s : CI) (e : CIEvent) (hc : s.state ≠ .confirmed) (h : e.settles = true) :
    (CI.step s e).1.state ≠ .calling := by
  revert h hc
  ci_cases s e <;> (repeat' split) <;> simp_all [CIEvent.settles]

theorem ci_noncalling_step (s : CI) (e : CIEvent) (h : s.state ≠ .calling) :
    (CI.step s e).1.state ≠ .calling ∧ CIAction.sent (CI.step s e).2 = [] := by
  revert h
  ci_cases s e <;> (repeat' split) <;> simp_all [CIAction.sent]

/-- the capped doubling sequence -/
theorem capped_double (a n t1 t2 : Nat)
    (hi : a = min (2 ^ n * t1) t2 ∨ (n = 0 ∧ a = t1)) :
    min (a * 2) t2 = min (2 ^ (n + 1) * t1) t2 := by
  have : 2 ^ (n + 1) * t1 = 2 * (2 ^ n * t1) := by rw [Nat.pow_succ]; ac_rfl
  rw [this]
  rcases hi with hi | ⟨hn, hi⟩
  · omega
  · subst hn; simp only [Nat.pow_zero]; omega

/-- interval bookkeeping of Timer A -/
theorem ci_interval_step (s : CI) (e : CIEvent)
    (hu : s.timers.transport.isReliable = false) (ht1 : s.timers.t1 ≠ 0)
    (h : (CI.step s e).1.state = .calling) :
    (CI.step s e).1.aInterval = (if e = .timer .A then
        min (s.aInterval * 2) s.timers.t2 else s.aInterval) := by
  revert h hu ht1
  ci_cases s e <;> (repeat' split) <;> simp_all [Timers.duration]

theorem ci_interval_run (s : CI) (es : List CIEvent) (n : Nat)
    (hu : s.timers.transport.isReliable = false) (ht1 : s.timers.t1 ≠ 0)
    (hi : s.aInterval = min (2 ^ n * s.timers.t1) s.timers.t2 ∨ (n = 0 ∧ s.aInterval = s.timers.t1))
    (h : (run CI.step s es).1.state = .calling) :
    let a := (run CI.step s es).1.aInterval
    let m := n + es.count (.timer .A)
    a = min (2 ^ m * s.timers.t1) s.timers.t2 ∨ (m = 0 ∧ a = s.timers.t1) := by
  induction es generalizing s n with
  | nil => simpa [run] using hi
  | cons e es ih =>
    rw [run_cons] at h ⊢
    have hc := ci_calling_of_run _ _ h
    have hs := ci_interval_step s e hu ht1 hc
    have ht := ci_timers s e
    by_cases he : e = .timer .A
    · subst he
      rw [if_pos rfl, capped_double _ n _ _ hi] at hs
      have := ih (CI.step s (.timer .A)).1 (n + 1) (by rw [ht]; exact hu) (by rw [ht]; exact ht1)
        (by rw [ht]; exact Or.inl hs) h
      rw [ht] at this
      simpa [Nat.add_assoc, Nat.add_comm 1] using this
    · rw [if_neg he] at hs
      have := ih (CI.step s e).1 n (by rw [ht]; exact hu) (by rw [ht]; exact ht1)
        (by rw [ht, hs]; exact hi) h
      rw [ht] at this
      simpa [List.count_cons, he] using this

/-! ### Client non-INVITE -/

macro "cn_cases" s:ident e:ident : tactic => `(tactic|
  (obtain ⟨st, tm, ai, li⟩ := $s
   cases st <;> cases $e:ident <;>
     (try (rename_i t; cases (t : Timer))) <;>
     simp only [CN.step, CN.handleInitialSend, CN.handleProvisional, CN.handleFinal,
       CN.handleTimerE, CN.handleTimerF, CN.handleTimerK, CN.handleTransportError]))

theorem cn_timers (s : CN) (e : CNEvent) : (CN.step s e).1.timers = s.timers := by
  cn_cases s e <;> (repeat' split) <;> rfl

theorem cn_run_timers (s : CN) (es : List CNEvent) :
    (run CN.step s es).1.timers = s.timers :=
  run_inv (fun x => x.timers = s.timers) (fun x e h => by rw [cn_timers, h]) s es rfl

theorem cn_rank_step (s : CN) (e : CNEvent) :
    s.state.rank ≤ (CN.step s e).1.state.rank := by
  cn_cases s e <;> (repeat' split) <;> simp_all [CNState.rank]

theorem cn_rank_run (s : CN) (es : List CNEvent) :
    s.state.rank ≤ (run CN.step s es).1.state.rank := by
  induction es generalizing s with
  | nil => exact Nat.le_refl _
  | cons e es ih => exact Nat.le_trans (cn_rank_step s e) (ih _)

/-- completed or terminated -/
def CN.done (s : CN) : Prop := 2 ≤ s.state.rank

theorem cn_done_step (s : CN) (e : CNEvent) (h : s.done) :
    (CN.step s e).1.done ∧ CNAction.delivered (CN.step s e).2 = [] ∧
      CNAction.sent (CN.step s e).2 = [] := by
  revert h
  unfold CN.done
  cn_cases s e <;> (repeat' split) <;>
    simp_all [CNState.rank, CNAction.delivered, CNAction.sent]

theorem cn_final_step (s : CN) (e : CNEvent) (hw : e.WellFormed)
    (r : Resp) (hr : r ∈ CNAction.delivered (CN.step s e).2) (hc : 200 ≤ r.code) :
    (CN.step s e).1.done ∧ CNAction.delivered (CN.step s e).2 = [r] := by
  revert hw hr
  unfold CN.done
  cn_cases s e <;> (repeat' split) <;>
    simp_all [CNState.rank, CNAction.delivered, CNEvent.WellFormed] <;> grind

theorem cn_delivered_done (s : CN) (es : List CNEvent) (h : s.done) :
    CNAction.delivered (outputs (run CN.step s es).2) = [] :=
  run_outputs_empty _ cn_delivered_append rfl CN.done (fun _ => True)
    (fun s e _ h => (cn_done_step s e h).1) (fun s e _ h => (cn_done_step s e h).2.1)
    s es (fun _ _ => trivial) h

theorem cn_sent_done (s : CN) (es : List CNEvent) (h : s.done) :
    CNAction.sent (outputs (run CN.step s es).2) = [] :=
  run_outputs_empty _ cn_sent_append rfl CN.done (fun _ => True)
    (fun s e _ h => (cn_done_step s e h).1) (fun s e _ h => (cn_done_step s e h).2.2)
    s es (fun _ _ => trivial) h

theorem cn_done_of_final (s : CN) (es : List CNEvent) (hw : ∀ e ∈ es, e.WellFormed)
    (r : Resp) (hr : r ∈ CNAction.delivered (outputs (run CN.step s es).2)) (hc : 200 ≤ r.code) :
    (run CN.step s es).1.done := by
  induction es generalizing s with
  | nil => simp [run, outputs, CNAction.delivered] at hr
  | cons e es ih =>
    simp only [run_cons, outputs_cons, cn_delivered_append, List.mem_append] at hr ⊢
    rcases hr with hr | hr
    · have := (cn_final_step s e (hw e (by simp)) r hr hc).1
      exact Nat.le_trans this (cn_rank_run _ _)
    · exact ih _ (fun e' he' => hw e' (by simp [he'])) hr

/-- requests are only ever submitted while `trying` -/
theorem cn_last_step (s : CN) (e : CNEvent) :
    (CN.step s e).1.lastRequest =
      (match e with
       | .sendRequest r => if s.state = .trying then some r.bytes else s.lastRequest
       | _ => s.lastRequest) := by
  cn_cases s e <;> (repeat' split) <;> simp_all

theorem cn_interval_step (s : CN) (e : CNEvent)
    (hu : s.timers.transport.isReliable = false) (ht1 : s.timers.t1 ≠ 0)
    (h : ¬ (CN.step s e).1.done) :
    ¬ s.done ∧ (CN.step s e).1.eInterval = (if e = .timer .E then
        min (s.eInterval * 2) s.timers.t2 else s.eInterval) := by
  revert h hu ht1
  unfold CN.done
  cn_cases s e <;> (repeat' split) <;> simp_all [Timers.duration, CNState.rank]

theorem cn_interval_run (s : CN) (es : List CNEvent) (n : Nat)
    (hu : s.timers.transport.isReliable = false) (ht1 : s.timers.t1 ≠ 0)
    (hi : s.eInterval = min (2 ^ n * s.timers.t1) s.timers.t2 ∨ (n = 0 ∧ s.eInterval = s.timers.t1))
    (h : ¬ (run CN.step s es).1.done) :
    let a := (run CN.step s es).1.eInterval
    let m := n + es.count (.timer .E)
    a = min (2 ^ m * s.timers.t1) s.timers.t2 ∨ (m = 0 ∧ a = s.timers.t1) := by
  induction es generalizing s n with
  | nil => simpa [run] using hi
  | cons e es ih =>
    rw [run_cons] at h ⊢
    have hc : ¬ (CN.step s e).1.done := fun hd => h (Nat.le_trans hd (cn_rank_run _ _))
    have hs := (cn_interval_step s e hu ht1 hc).2
    have ht := cn_timers s e
    by_cases he : e = .timer .E
    · subst he
      rw [if_pos rfl, capped_double _ n _ _ hi] at hs
      have := ih (CN.step s (.timer .E)).1 (n + 1) (by rw [ht]; exact hu) (by rw [ht]; exact ht1)
        (by rw [ht]; exact Or.inl hs) h
      rw [ht] at this
      simpa [Nat.add_assoc, Nat.add_comm 1] using this
    · rw [if_neg he] at hs
      have := ih (CN.step s e).1 n (by rw [ht]; exact hu) (by rw [ht]; exact ht1)
        (by rw [ht, hs]; exact hi) h
      rw [ht] at this
      simpa [List.count_cons, he] using this

/-! ### Servers -/

macro "sn_cases" s:ident e:ident : tactic => `(tactic|
  (obtain ⟨st, tm, lr⟩ := $s
   cases st <;> cases $e:ident <;>
     (try (rename_i t; cases (t : Timer))) <;>
     simp only [SN.step, SN.onRetransmit, SN.handleProvisional, SN.handleFinal,
       SN.handleAck, SN.handleTimerJ, SN.handleTransportError]))

macro "si_cases" s:ident e:ident : tactic => `(tactic|
  (obtain ⟨st, tm, gi, lr, lf⟩ := $s
   cases st <;> cases $e:ident <;>
     (try (rename_i t; cases (t : Timer))) <;>
     simp only [SI.step, SI.onRetransmit, SI.sendProvisional, SI.sendFinal,
       SI.handleAck, SI.handleTimerG, SI.handleTimerH, SI.handleTimerI,
       SI.handleTransportError]))

theorem sn_timers (s : SN) (e : SNEvent) : (SN.step s e).1.timers = s.timers := by
  sn_cases s e <;> (repeat' split) <;> rfl

theorem sn_run_timers (s : SN) (es : List SNEvent) :
    (run SN.step s es).1.timers = s.timers :=
  run_inv (fun x => x.timers = s.timers) (fun x e h => by rw [sn_timers, h]) s es rfl

theorem si_timers (s : SI) (e : SIEvent) : (SI.step s e).1.timers = s.timers := by
  si_cases s e <;> (repeat' split) <;> rfl

theorem si_run_timers (s : SI) (es : List SIEvent) :
    (run SI.step s es).1.timers = s.timers :=
  run_inv (fun x => x.timers = s.timers) (fun x e h => by rw [si_timers, h]) s es rfl

theorem sn_rank_step (s : SN) (e : SNEvent) :
    s.state.rank ≤ (SN.step s e).1.state.rank := by
  sn_cases s e <;> (repeat' split) <;> simp_all [SNState.rank]

theorem sn_rank_run (s : SN) (es : List SNEvent) :
    s.state.rank ≤ (run SN.step s es).1.state.rank := by
  induction es generalizing s with
  | nil => exact Nat.le_refl _
  | cons e es ih => exact Nat.le_trans (sn_rank_step s e) (ih _)

/-- the stored response is the last thing put on the wire -/
theorem sn_last_step (s : SN) (e : SNEvent) (h : List Bytes) (hl : s.lastResponse = h.getLast?) :
    (SN.step s e).1.lastResponse = (h ++ SAction.sent (SN.step s e).2).getLast? := by
  rw [List.getLast?_append, ← hl]
  sn_cases s e <;> (repeat' split) <;> simp_all [SAction.sent]

theorem sn_last_run (s : SN) (es : List SNEvent) (h : List Bytes)
    (hl : s.lastResponse = h.getLast?) :
    (run SN.step s es).1.lastResponse =
      (h ++ SAction.sent (outputs (run SN.step s es).2)).getLast? := by
  induction es generalizing s h with
  | nil => simpa [run, outputs, SAction.sent] using hl
  | cons e es ih =>
    rw [run_cons]
    simp only [outputs_cons, s_sent_append]
    rw [ih _ _ (sn_last_step s e h hl), List.append_assoc]

end Siphon.Fsm
