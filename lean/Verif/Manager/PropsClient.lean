import Verif.Manager.LemmasClient
/-!
# Client transactions seen from outside the manager (C01, C04, C08, C12, C13)

Histories are arbitrary: requests, responses, timers (armed or not), queued commands and any
outcome of every network send, for any number of other transactions.
-/

namespace Siphon.Manager
open Siphon.Fsm
set_option linter.unusedSimpArgs false

/-- a history in which client transaction `k` is started exactly once, at `start` -/
structure Once (k : Key) (pre post : List Op) (start : Op) : Prop where
  starts : start.starts k
  before : ∀ op ∈ pre, ¬ op.starts k
  afterwards : ∀ op ∈ post, ¬ op.starts k

/-- a target with an entry -/
theorem once_run (net : Nat → Bool) (ms mc t1 t2 t4 : Nat) (k : Key) (pre post : List Op)
    (method : Method) (via : Option Str) (b : Bytes) (c : Ctx) (rem : List Ctx) (tu now : Nat)
    (h : Once k pre post (.start method via b (c :: rem) tu now))
    (P : Mgr → List Out → Prop)
    (hlaunch : ∀ m outs, Fresh k m outs →
      P (m.launch net k b c rem tu now).1 (outs ++ (m.launch net k b c rem tu now).2))
    (hstep : ∀ m outs op, ¬ op.starts k → P m outs → P (step net m op).1 (outs ++ (step net m op).2)) :
    P (runOps net (Mgr.init ms mc t1 t2 t4) (pre ++ .start method via b (c :: rem) tu now :: post)).1
      (runOps net (Mgr.init ms mc t1 t2 t4) (pre ++ .start method via b (c :: rem) tu now :: post)).2 := by
  rw [runOps_append]
  have hf := fresh_runOps net k ms mc t1 t2 t4 pre h.before
  generalize runOps net (Mgr.init ms mc t1 t2 t4) pre = r0 at hf
  obtain ⟨m0, o0⟩ := r0
  simp only [runOps]
  rw [start_split net m0 k method via b c rem tu now h.starts]
  simp only [andThen]
  have he := fresh_enforce k m0 o0 hf
  have hl := hlaunch _ _ he
  simp only [List.append_assoc] at hl
  have hr := runOps_inv net P (fun op => ¬ op.starts k) hstep _ _ post h.afterwards hl
  simpa only [List.append_assoc] using hr

/-- **C13.** A client transaction started with an ordered list of targets `ts` sends to them in list
order: it stays with a target until a send to it fails, and then moves to the next one and never
back.  The user is told of a transport failure at most once, and only after a send to every target
has failed.  Conversely, once as many sends failed as there are targets, the transaction has ended
or its failure is queued for the user. -/
theorem C13_failover (net : Nat → Bool) (ms mc t1 t2 t4 : Nat) (k : Key) (pre post : List Op)
    (method : Method) (via : Option Str) (b : Bytes) (ts : List Ctx) (tu now : Nat)
    (h : Once k pre post (.start method via b ts tu now)) :
    let r := runOps net (Mgr.init ms mc t1 t2 t4) (pre ++ .start method via b ts tu now :: post)
    Legal ts (attemptsOf k r.2) ∧
    errorsOf k r.2 ≤ 1 ∧
    (errorsOf k r.2 = 1 →
      (∀ t ∈ ts, (t, false) ∈ attemptsOf k r.2) ∧ r.1.client.get k = none) ∧
    (ts.length ≤ ((attemptsOf k r.2).filter (fun a => !a.2)).length →
      Cmd.clientError k ∈ r.1.pending ∨ r.1.client.get k = none) := by
  cases ts with
  | nil => exact absurd rfl h.starts.1
  | cons c rem =>
    have hi := once_run net ms mc t1 t2 t4 k pre post method via b c rem tu now h
      (Inv13 k (c :: rem)) (fun m outs hf => inv13_launch net k b c rem tu now m outs hf)
      (fun m outs op hop hi => inv13_op net k (c :: rem) m outs op hop hi)
    simp only
    refine ⟨hi.legal, hi.once, ?_, ?_⟩
    · intro he
      have := hi.told (by omega)
      exact ⟨all_failed _ _ hi.legal this.1, this.2⟩
    · intro hf
      rcases hi.notYet with hx | hx | hx
      · exact Or.inl hx
      · exact Or.inr hx
      · exfalso
        have hpos : 0 < (after (c :: rem) (attemptsOf k
            (runOps net (Mgr.init ms mc t1 t2 t4)
              (pre ++ .start method via b (c :: rem) tu now :: post)).2)).length := by
          have : ∀ (ts : List Ctx) (as : List (Ctx × Bool)), ts ≠ [] → after ts as ≠ [] := by
            intro ts as
            induction as generalizing ts with
            | nil => cases ts <;> simp [after]
            | cons x xs ih =>
              obtain ⟨d, ok⟩ := x
              rcases ts with _ | ⟨c, _ | ⟨c', cs⟩⟩ <;> cases ok <;> intro hne <;> simp_all [after]
          exact List.length_pos_iff.mpr (this _ _ (by simp))
        unfold fails at hx
        omega

/-- C13, the queued failure: handling it tells the user and ends the transaction; if the entry is
already gone the user is not told again. -/
theorem C13_failure_reported (net : Nat → Bool) (k : Key) (m : Mgr) (e : CEntry) (cs : List Cmd)
    (hp : m.pending = .clientError k :: cs) (hg : m.client.get k = some e) :
    (.transportError e.tu k) ∈ (step net m .command).2 ∧ (step net m .command).1.client.get k = none := by
  refine ⟨?_, ?_⟩
  · simp [step, Mgr.command, hp, Mgr.processClientError, Mgr.stepClient, hg]
  · have := error_gone net k { m with pending := cs }
    simpa [step, Mgr.command, hp] using this

/-- C13: an empty list of targets, or a request without a branch, is refused and nothing happens. -/
theorem C13_no_target (net : Nat → Bool) (method : Method) (via : Option Str) (b : Bytes) (ts : List Ctx)
    (tu now : Nat) (m : Mgr) (h : ts = [] ∨ via.bind branchFromVia = none) :
    m.startClient net method via b ts tu now = (m, [], none) := by
  unfold Mgr.startClient
  rcases h with rfl | h
  · rfl
  · rw [h]; cases ts <;> rfl

/-- **C12, users.** Everything the manager ever says about client transaction `k` it says to the user
that started it. -/
theorem C12_user (net : Nat → Bool) (ms mc t1 t2 t4 : Nat) (k : Key) (pre post : List Op)
    (method : Method) (via : Option Str) (b : Bytes) (ts : List Ctx) (tu now : Nat)
    (h : Once k pre post (.start method via b ts tu now)) (o : Out)
    (ho : o ∈ (runOps net (Mgr.init ms mc t1 t2 t4) (pre ++ .start method via b ts tu now :: post)).2)
    (hk : o.clientKey = some k) (u : Nat) (hu : o.user = some u) : u = tu := by
  cases ts with
  | nil => exact absurd rfl h.starts.1
  | cons c rem =>
    have hi := once_run net ms mc t1 t2 t4 k pre post method via b c rem tu now h (Mine k tu)
      (fun m outs hf => mine_launch net k b c rem tu now m outs hf)
      (fun m outs op hop hi => mine_step net k tu m outs op hop hi)
    exact hi.told o ho hk u hu

/-- **C01 for the whole manager.** Over any history, however often the key is reused, the ACKs
requested for an INVITE transaction are exactly its final responses, in order, each once, and each
marked as a 2xx ACK iff the response is 2xx. -/
theorem C01_manager (net : Nat → Bool) (ms mc t1 t2 t4 : Nat) (k : Key) (hk : k.method = .invite)
    (ops : List Op) :
    acksOf k (runOps net (Mgr.init ms mc t1 t2 t4) ops).2 =
      (finalsOf k (runOps net (Mgr.init ms mc t1 t2 t4) ops).2).map (fun r => (r, r.is2xx)) := by
  have hfeed : ∀ (kd : CKind) (f : List Resp) (a : List (Resp × Bool)) (ev : CEv), ev.legit →
      ((∀ s, some kd ≠ some (CKind.nonInvite s)) ∧ a = f.map (fun r => (r, r.is2xx))) →
      (∀ s, some (kd.feed ev).1 ≠ some (CKind.nonInvite s)) ∧
      a ++ (kd.feed ev).2.acks = (f ++ (kd.feed ev).2.finals).map (fun r => (r, r.is2xx)) := by
    rintro kd f a ev hl ⟨h1, rfl⟩
    cases kd with
    | nonInvite s => exact absurd rfl (h1 s)
    | invite s =>
      refine ⟨by simp [CKind.feed], ?_⟩
      rw [List.map_append]
      congr 1
      obtain ⟨st, tm, ai, li⟩ := s
      cases ev with
      | timer t =>
        cases st <;> cases t <;>
          simp [CKind.feed, CI.step, CActs.finals, CActs.acks, ciFinals, ciAcks,
            CI.handleTimerA, CI.handleTimerB, CI.handleTimerD]
        by_cases ha : tm.duration .A = 0
        · simp [ha, ciFinals, ciAcks]
        · cases li <;> simp [ha, ciFinals, ciAcks]
      | provisional r =>
        have : r.code < 200 := hl
        cases st <;>
          simp [CKind.feed, CI.step, CI.handleProvisional, CActs.finals, CActs.acks, ciFinals, ciAcks, this]
          <;> (split <;> simp [ciFinals, ciAcks])
      | final r =>
        have : ¬ r.code < 200 := hl
        by_cases h2 : r.is2xx = true <;> cases st <;>
          simp [CKind.feed, CI.step, CI.handleFinal, CI.handleFinal2xx, CI.handleFinalNon2xx,
            CActs.finals, CActs.acks, ciFinals, ciAcks, this, h2]
      | transportError =>
        cases st <;> simp [CKind.feed, CI.step, CI.handleTransportError, CActs.finals, CActs.acks,
          ciFinals, ciAcks]
  have hi := runOps_inv net
    (Pkm k (fun x f a => (∀ s, x ≠ some (CKind.nonInvite s)) ∧ a = f.map (fun r => (r, r.is2xx))))
    (fun _ => True)
    (fun m outs op _ hP => pk_step net k _ hfeed (fun x f a h => ⟨by simp, h.2⟩) True
      (fun _ x f a tm b h => ⟨by simp [startKind, hk], h.2⟩) m outs op (fun _ => trivial) hP)
    (Mgr.init ms mc t1 t2 t4) [] ops (by simp) ⟨by simp [Mgr.init, Tbl.get], rfl⟩
  have := hi.2
  simpa using this

/-- **C04 for the whole manager.** The user of a non-INVITE transaction started once is given at most
one final response, whatever arrives. -/
theorem C04_manager (net : Nat → Bool) (ms mc t1 t2 t4 : Nat) (k : Key) (hk : k.method ≠ .invite)
    (pre post : List Op) (method : Method) (via : Option Str) (b : Bytes) (ts : List Ctx) (tu now : Nat)
    (h : Once k pre post (.start method via b ts tu now)) :
    (finalsOf k (runOps net (Mgr.init ms mc t1 t2 t4)
      (pre ++ .start method via b ts tu now :: post)).2).length ≤ 1 := by
  cases ts with
  | nil => exact absurd rfl h.starts.1
  | cons c rem =>
    let Pk : Option CKind → List Resp → List (Resp × Bool) → Prop := fun x f _ =>
      f.length ≤ 1 ∧ ∀ kd, x = some kd → ∃ s, kd = .nonInvite s ∧
        (s.state = .trying ∨ s.state = .proceeding → f = [])
    have hfeed : ∀ (kd : CKind) (f : List Resp) (a : List (Resp × Bool)) (ev : CEv), ev.legit →
        Pk (some kd) f a →
        Pk (some (kd.feed ev).1) (f ++ (kd.feed ev).2.finals) (a ++ (kd.feed ev).2.acks) := by
      rintro kd f a ev hl ⟨h1, h2⟩
      obtain ⟨s, rfl, h3⟩ := h2 kd rfl
      obtain ⟨st, tm, ai, li⟩ := s
      simp only [Pk, Option.some.injEq, forall_eq']
      cases ev with
      | timer t =>
        cases st <;> cases t <;>
          simp_all [CKind.feed, CN.step, CActs.finals, cnFinals, CN.handleTimerE, CN.handleTimerF,
            CN.handleTimerK] <;>
        (by_cases ha : tm.duration .E = 0
         · simp_all [cnFinals]
         · cases li <;> simp_all [cnFinals])
      | provisional r =>
        have : r.code < 200 := hl
        cases st <;> simp_all [CKind.feed, CN.step, CActs.finals, cnFinals, CN.handleProvisional]
      | final r =>
        have : ¬ r.code < 200 := hl
        cases st <;> simp_all [CKind.feed, CN.step, CActs.finals, cnFinals, CN.handleFinal] <;>
          (split <;> simp)
      | transportError =>
        cases st <;> simp_all [CKind.feed, CN.step, CActs.finals, cnFinals, CN.handleTransportError]
    have hgone : ∀ x f a, Pk x f a → Pk none f a := fun x f a h => ⟨h.1, by simp⟩
    have hi := once_run net ms mc t1 t2 t4 k pre post method via b c rem tu now h (Pkm k Pk)
      (fun m outs hf => pk_launch net k Pk hgone m b c rem tu now outs (by
        rw [(other_client k outs hf.2.2).2.1]
        simp [Pk, startKind, hk]))
      (fun m outs op hop hP => pk_step net k Pk hfeed hgone False (fun hF => hF.elim) m outs op
        (fun x => hop x) hP)
    exact hi.1

/-- **C08 for the whole manager.** In every reachable state each client transaction in the table has a
bounding timer - B or D for INVITE, F or K otherwise - that is armed or queued, and when it fires the
transaction leaves the table. -/
theorem C08_manager (net : Nat → Bool) (ms mc t1 t2 t4 : Nat) (ops : List Op) (k : Key) (e : CEntry)
    (he : (runOps net (Mgr.init ms mc t1 t2 t4) ops).1.client.get k = some e) :
    let m := (runOps net (Mgr.init ms mc t1 t2 t4) ops).1
    ∃ t ∈ [Timer.B, .D, .F, .K], (t ∈ e.timers ∨ Cmd.clientTimer k t ∈ m.pending) ∧
      (step net m (.clientTimer k t)).1.client.get k = none := by
  have hl := runOps_inv net (fun m _ => LiveC k m) (fun _ => True)
    (fun m _ op _ h => step_liveC net k m op h) (Mgr.init ms mc t1 t2 t4) [] ops (by simp)
    (by intro e he; simp [Mgr.init, Tbl.get] at he)
  simp only at hl ⊢
  generalize (runOps net (Mgr.init ms mc t1 t2 t4) ops).1 = m at he hl
  have hle := hl e he
  refine ⟨e.kind.bound, ?_, ?_, bound_ends net k m e he _ hle⟩
  · cases e.kind <;> simp only [CKind.bound] <;> split <;> simp
  · cases hkd : e.kind with
    | invite s =>
      rw [hkd] at hle
      rcases hle with ⟨h1 | h1, h2⟩ | ⟨h1, h2⟩ <;> simp only [CKind.bound, h1, reduceCtorEq, if_false, if_true] <;> exact h2
    | nonInvite s =>
      rw [hkd] at hle
      rcases hle with ⟨h1 | h1, h2⟩ | ⟨h1, h2⟩ <;> simp only [CKind.bound, h1, reduceCtorEq, if_false, if_true] <;> exact h2

/-! ## The hypotheses are met -/

private def u1 : Ctx := ⟨.udp, 1⟩
private def u2 : Ctx := ⟨.tls, 2⟩
private def via1 : Str := "SIP/2.0/UDP h;branch=z9hG4bKa".toList
private def kI : Key := ⟨"z9hG4bKa".toList, .invite, false⟩
private def startI : Op := .start .invite (some via1) [1] [u1, u2] 7 0

private theorem startI_starts : startI.starts kI := by
  refine ⟨by simp, rfl, rfl, ?_⟩
  decide +kernel

/-- first send fails, second works: one attempt each, nothing reported, and the 486 that arrives on
the second target is acknowledged -/
example :
    Once kI [] [.response (some via1) (some "1 INVITE".toList) ⟨486, false, [9]⟩] startI ∧
    (let r := runOps (fun n => n ≠ 0) (Mgr.init 10 10 500 4000 5000)
      [startI, .response (some via1) (some "1 INVITE".toList) ⟨486, false, [9]⟩]
     attemptsOf kI r.2 = [(u1, false), (u2, true)] ∧ errorsOf kI r.2 = 0 ∧
     acksOf kI r.2 = [(⟨486, false, [9]⟩, false)]) := by
  refine ⟨⟨startI_starts, by simp, by simp [Op.starts]⟩, ?_⟩
  decide +kernel

/-- both sends fail: the failure is queued and reported once -/
example :
    let r := runOps (fun _ => false) (Mgr.init 10 10 500 4000 5000) [startI, .command, .command]
    attemptsOf kI r.2 = [(u1, false), (u2, false)] ∧ errorsOf kI r.2 = 1 ∧
    r.1.client.get kI = none := by decide +kernel

private def kO : Key := ⟨"z9hG4bKa".toList, .options, false⟩
private def startO : Op := .start .options (some via1) [1] [u1] 7 0

/-- a non-INVITE transaction given two finals delivers one -/
example :
    let ops := [startO, .response (some via1) (some "1 OPTIONS".toList) ⟨200, false, [9]⟩,
      .response (some via1) (some "1 OPTIONS".toList) ⟨500, false, [8]⟩]
    startO.starts kO ∧
    finalsOf kO (runOps (fun _ => true) (Mgr.init 10 10 500 4000 5000) ops).2 =
      [⟨200, false, [9]⟩] := by
  refine ⟨⟨by simp, rfl, rfl, by decide +kernel⟩, by decide +kernel⟩

/-- Finding: with a reliable transport the entry of an INVITE is gone as soon as the first 2xx
arrives, so the retransmitted 2xx (RFC 3261 13.2.2.4 requires another ACK) reaches nobody. -/
theorem C01_second_2xx_lost :
    let ops := [startI, .response (some via1) (some "1 INVITE".toList) ⟨200, false, [9]⟩]
    let m := (runOps (fun _ => true) (Mgr.init 10 10 500 4000 5000) ops).1
    step (fun _ => true) m (.response (some via1) (some "1 INVITE".toList) ⟨200, false, [9]⟩) = (m, []) := by
  decide +kernel

/-- Finding: starting a transaction on a key that is in use silently replaces the live one; its user
is told nothing and the response goes to the second user. -/
theorem C13_restart_replaces :
    let start2 : Op := .start .options (some via1) [2] [u1] 8 1
    let r := runOps (fun _ => true) (Mgr.init 10 10 500 4000 5000)
      [startO, start2, .response (some via1) (some "1 OPTIONS".toList) ⟨200, false, [9]⟩]
    (r.2.filter (fun o => o.user = some 7)) = [] ∧
    (r.2.filter (fun o => o.user = some 8)) = [.final 8 kO ⟨200, false, [9]⟩] := by
  decide +kernel

end Siphon.Manager
