import Verif.Manager.LemmasLive
import Verif.Manager.LemmasServer
/-!
# Server transactions seen from outside the manager (C09, C11)
-/

namespace Siphon.Manager
open Siphon.Fsm
set_option linter.unusedSimpArgs false

/-! ## Proof internals -/

def SActs.terminates (as : List SAction) : Prop := ∃ w, .terminate w ∈ as

/-- waiting for the application's final response -/
def SKind.awaiting : SKind → Prop
  | .invite s => s.state = .proceeding
  | .nonInvite s => s.state = .proceeding

def liveS (G : Timer → Prop) : SKind → Prop
  | .invite s => s.state = .proceeding ∨ (s.state = .completed ∧ G .H) ∨ (s.state = .confirmed ∧ G .I)
  | .nonInvite s => s.state = .proceeding ∨ (s.state = .completed ∧ G .J)

theorem liveS_mono (G H : Timer → Prop) (kd : SKind) (hGH : ∀ t, G t → H t) (h : liveS G kd) :
    liveS H kd := by
  cases kd with
  | invite s =>
    rcases h with h | ⟨h1, h2⟩ | ⟨h1, h2⟩
    · exact Or.inl h
    · exact Or.inr (Or.inl ⟨h1, hGH _ h2⟩)
    · exact Or.inr (Or.inr ⟨h1, hGH _ h2⟩)
  | nonInvite s =>
    rcases h with h | ⟨h1, h2⟩
    · exact Or.inl h
    · exact Or.inr ⟨h1, hGH _ h2⟩

theorem sfeed_live (G : Timer → Prop) (kd : SKind) (ev : SEv) (h : liveS G kd) :
    SActs.terminates (kd.feed ev).2 ∨
    (¬ SActs.terminates (kd.feed ev).2 ∧
     liveS (fun u => keepsS u (kd.feed ev).2 (G u ∧ ev ≠ .timer u)) (kd.feed ev).1) := by
  cases kd with
  | invite s =>
    obtain ⟨st, tm, gi, lr, lf⟩ := s
    cases ev with
    | timer t =>
      cases st <;> cases t <;>
        simp_all [SKind.feed, SI.step, liveS, SActs.terminates, keepsS, SI.handleTimerG, SI.handleTimerH,
          SI.handleTimerI]
      by_cases hg : tm.duration .G = 0
      · simp_all [keepsS]
      · cases lf <;> simp_all [keepsS]
    | final r =>
      by_cases h2 : r.is2xx = true
      · cases st <;> simp_all [SKind.feed, SI.step, liveS, SActs.terminates, keepsS, SI.sendFinal]
      · by_cases hg : tm.duration .G = 0 <;> cases st <;>
          simp_all [SKind.feed, SI.step, liveS, SActs.terminates, keepsS, SI.sendFinal]
    | retransmit =>
      cases st <;> cases lr <;> simp_all [SKind.feed, SI.step, liveS, SActs.terminates, keepsS, SI.onRetransmit]
    | received => cases st <;> simp_all [SKind.feed, SI.step, liveS, SActs.terminates, keepsS]
    | cancel => cases st <;> simp_all [SKind.feed, SI.step, liveS, SActs.terminates, keepsS]
    | provisional r =>
      cases st <;> simp_all [SKind.feed, SI.step, liveS, SActs.terminates, keepsS, SI.sendProvisional]
    | ack => cases st <;> simp_all [SKind.feed, SI.step, liveS, SActs.terminates, keepsS, SI.handleAck]
    | transportError =>
      cases st <;> simp_all [SKind.feed, SI.step, liveS, SActs.terminates, keepsS, SI.handleTransportError]
  | nonInvite s =>
    obtain ⟨st, tm, lr⟩ := s
    cases ev with
    | timer t =>
      cases st <;> cases t <;>
        simp_all [SKind.feed, SN.step, liveS, SActs.terminates, keepsS, SN.handleTimerJ]
    | final r => cases st <;> simp_all [SKind.feed, SN.step, liveS, SActs.terminates, keepsS, SN.handleFinal]
    | retransmit =>
      cases st <;> cases lr <;> simp_all [SKind.feed, SN.step, liveS, SActs.terminates, keepsS, SN.onRetransmit]
    | received => cases st <;> simp_all [SKind.feed, SN.step, liveS, SActs.terminates, keepsS]
    | cancel => cases st <;> simp_all [SKind.feed, SN.step, liveS, SActs.terminates, keepsS]
    | provisional r =>
      cases st <;> simp_all [SKind.feed, SN.step, liveS, SActs.terminates, keepsS, SN.handleProvisional]
    | ack => cases st <;> simp_all [SKind.feed, SN.step, liveS, SActs.terminates, keepsS, SN.handleAck]
    | transportError =>
      cases st <;> simp_all [SKind.feed, SN.step, liveS, SActs.terminates, keepsS, SN.handleTransportError]

def LiveS (k : Key) (m : Mgr) : Prop :=
  ∀ e, m.server.get k = some e → liveS (GuardS k m e) e.kind

theorem feedServer_live (net : Nat → Bool) (k : Key) (ev : SEv) (m : Mgr) (G : SEntry → Timer → Prop)
    (hG : ∀ e u, m.server.get k = some e → (G e u ∧ ev ≠ .timer u) → GuardS k m e u)
    (hl : ∀ e, m.server.get k = some e → liveS (G e) e.kind) : LiveS k (m.feedServer net k ev).1 := by
  intro e' he'
  unfold Mgr.feedServer Mgr.stepServer at he' ⊢
  cases hg : m.server.get k with
  | none => simp only [hg] at he'; simp at he'
  | some e0 =>
    simp only [hg] at he' ⊢
    rcases sfeed_live (G e0) e0.kind ev (hl e0 hg) with ⟨w, hw⟩ | ⟨h1, h2⟩
    · rw [applyServer_terminate net k _ _ w hw] at he'; simp at he'
    · obtain ⟨e1, i1, i2, _, i3⟩ := applyServer_entry net k (e0.kind.feed ev).2
        { m with server := m.server.update k (fun x => { x with kind := (e0.kind.feed ev).1 }) }
        { e0 with kind := (e0.kind.feed ev).1 } (by simp [Tbl.get_update_self, hg])
        (fun w hw => h1 ⟨w, hw⟩)
      rw [i1] at he'
      simp only [Option.some.injEq] at he'
      subst he'
      rw [i2]
      refine liveS_mono _ _ _ ?_ h2
      intro t ht
      refine i3 t (keepsS_mono t _ _ _ ?_ ht)
      intro hh
      have := hG e0 t hg hh
      simpa [GuardS] using this

theorem stimer_live (net : Nat → Bool) (k : Key) (t : Timer) (m : Mgr) (G : SEntry → Timer → Prop)
    (hG : ∀ e u, m.server.get k = some e → G e u → u ≠ t → GuardS k m e u)
    (hl : ∀ e, m.server.get k = some e → liveS (G e) e.kind) :
    LiveS k (m.handleServerTimer net k t).1 := by
  unfold Mgr.handleServerTimer
  cases hg : m.server.get k with
  | none =>
    intro e' he'
    simp [Mgr.feedServer, Mgr.stepServer, Mgr.cancelServer, Tbl.get_update_self, hg] at he'
  | some e0 =>
    obtain ⟨e1, h1, hk, _, hgd⟩ := cancel_guardS k t m e0 hg
    refine feedServer_live net k (.timer t) _ (fun _ => G e0) ?_ ?_
    · intro e u he hu
      rw [h1] at he
      simp only [Option.some.injEq] at he
      subst he
      have hne : u ≠ t := by rintro rfl; exact hu.2 rfl
      exact hgd u ⟨hG e0 u hg hu.1 hne, hne⟩
    · intro e he
      rw [h1] at he
      simp only [Option.some.injEq] at he
      subst he
      rw [hk]; exact hl e0 hg

theorem enrol_entry (net : Nat → Bool) (k : Key) (c : Ctx) (now : Nat) (m : Mgr) :
    (m.enrol net k c now).2 = [] ∧
    ∃ kd, (m.enrol net k c now).1.server.get k = some ⟨kd, c, [], now⟩ ∧ kd.awaiting ∧
      (kd = .invite (SI.new (m.timersFor c)) ∧ k.method = .invite ∨
       ∃ s : SN, kd = .nonInvite s ∧ s.lastResponse = none ∧ k.method ≠ .invite) := by
  unfold Mgr.enrol
  by_cases hi : k.method = .invite
  · simp only [hi]
    refine ⟨rfl, _, Tbl.get_insert_self _ _ _, rfl, Or.inl ⟨rfl, trivial⟩⟩
  · have : (match k.method with
        | Method.invite => SKind.invite (SI.new (m.timersFor c))
        | _ => SKind.nonInvite (SN.new (m.timersFor c))) = .nonInvite (SN.new (m.timersFor c)) := by
      split
      · contradiction
      · rfl
    simp only [this]
    exact ⟨rfl, _, Tbl.get_insert_self _ _ _, rfl, Or.inr ⟨_, rfl, rfl, hi⟩⟩

theorem awaiting_live (G : Timer → Prop) (kd : SKind) (h : kd.awaiting) : liveS G kd := by
  cases kd <;> exact Or.inl h

theorem step_liveS (net : Nat → Bool) (k : Key) (m : Mgr) (op : Op) (h : LiveS k m) :
    LiveS k (step net m op).1 := by
  refine step_server net k (fun m _ => LiveS k m) ?_ ?_ ?_ ?_ ?_ ?_ ?_ m [] op h
  · intro m m' _ _ hg _ hp _ hl e he
    rw [hg] at he
    refine liveS_mono _ _ _ ?_ (hl e he)
    intro t ht
    unfold GuardS at ht ⊢
    rw [mem_pendS, hp, ← mem_pendS]
    exact ht
  · intro m _ _ e' he'
    simp [Tbl.get_remove_self] at he'
  · intro m _ ev _ _ hl
    exact feedServer_live net k ev m (GuardS k m) (fun e u _ h => h.1) hl
  · intro m _ t hl
    exact stimer_live net k t m (GuardS k m) (fun e u _ h _ => h) hl
  · intro m _ t cs hp hl
    refine stimer_live net k t { m with pending := cs } (GuardS k m) ?_ hl
    intro e u _ hG hne
    rcases hG with hG | hG
    · exact Or.inl hG
    · right
      rw [hp] at hG
      rcases List.mem_cons.mp hG with hG | hG
      · cases hG; exact absurd rfl hne
      · exact hG
  · intro m _ cs hp hl
    refine feedServer_live net k .transportError { m with pending := cs } (GuardS k m) ?_ hl
    intro e u _ hG
    rcases hG.1 with hG | hG
    · exact Or.inl hG
    · right
      rw [hp] at hG
      rcases List.mem_cons.mp hG with hG | hG
      · cases hG
      · exact hG
  · intro m _ c now _ _ e he
    obtain ⟨_, kd, h1, h2, _⟩ := enrol_entry net k c now m
    rw [h1] at he
    simp only [Option.some.injEq] at he
    subst he
    exact awaiting_live _ _ h2

/-! ## C09 -/

/-- **C09 for the whole manager.** In every reachable state each server transaction in the table
either still waits for the application's final response, or has its bounding timer - H or I for
INVITE, J otherwise - armed or queued, and when that timer fires it leaves the table. -/
theorem C09_manager (net : Nat → Bool) (ms mc t1 t2 t4 : Nat) (ops : List Op) (k : Key) (e : SEntry)
    (he : (runOps net (Mgr.init ms mc t1 t2 t4) ops).1.server.get k = some e) :
    let m := (runOps net (Mgr.init ms mc t1 t2 t4) ops).1
    e.kind.awaiting ∨
    ∃ t ∈ [Timer.H, .I, .J], (t ∈ e.timers ∨ Cmd.serverTimer k t ∈ m.pending) ∧
      (step net m (.serverTimer k t)).1.server.get k = none := by
  have hl := runOps_inv net (fun m _ => LiveS k m) (fun _ => True)
    (fun m _ op _ h => step_liveS net k m op h) (Mgr.init ms mc t1 t2 t4) [] ops (by simp)
    (by intro e he; simp [Mgr.init, Tbl.get] at he)
  simp only at hl ⊢
  generalize (runOps net (Mgr.init ms mc t1 t2 t4) ops).1 = m at he hl
  have hle := hl e he
  have ends : ∀ t w, .terminate w ∈ (e.kind.feed (.timer t)).2 →
      (step net m (.serverTimer k t)).1.server.get k = none := by
    intro t w hw
    simp only [step, Mgr.handleServerTimer, Mgr.feedServer, Mgr.stepServer, Mgr.cancelServer,
      Tbl.get_update_self, he, Option.map_some]
    exact applyServer_terminate net k _ _ w hw
  cases hkd : e.kind with
  | invite s =>
    rw [hkd] at hle ends
    rcases hle with h1 | ⟨h1, h2⟩ | ⟨h1, h2⟩
    · exact Or.inl h1
    · exact Or.inr ⟨.H, by simp, h2, ends .H "Timer H expired" (by simp [SKind.feed, SI.step, h1, SI.handleTimerH])⟩
    · exact Or.inr ⟨.I, by simp, h2, ends .I "Timer I expired" (by simp [SKind.feed, SI.step, h1, SI.handleTimerI])⟩
  | nonInvite s =>
    rw [hkd] at hle ends
    rcases hle with h1 | ⟨h1, h2⟩
    · exact Or.inl h1
    · exact Or.inr ⟨.J, by simp, h2, ends .J "Timer J expired" (by simp [SKind.feed, SN.step, h1, SN.handleTimerJ])⟩

/-- C09, the other half: once the application sends its final response, the transaction no longer
waits for it. -/
theorem C09_final_ends_waiting (net : Nat → Bool) (k : Key) (r : Resp) (m : Mgr) (e e' : SEntry)
    (he : m.server.get k = some e) (hw : e.kind.awaiting)
    (he' : (step net m (.sendFinal k r)).1.server.get k = some e') : ¬ e'.kind.awaiting := by
  simp only [step, Mgr.feedServer, Mgr.stepServer, he] at he'
  by_cases ht : ∃ w, .terminate w ∈ (e.kind.feed (.final r)).2
  · obtain ⟨w, hw⟩ := ht
    rw [applyServer_terminate net k _ _ w hw] at he'
    simp at he'
  · obtain ⟨e1, i1, i2, _⟩ := applyServer_entry net k (e.kind.feed (.final r)).2
      { m with server := m.server.update k (fun x => { x with kind := (e.kind.feed (.final r)).1 }) }
      { e with kind := (e.kind.feed (.final r)).1 } (by simp [Tbl.get_update_self, he])
      (by simpa using ht)
    rw [i1] at he'
    simp only [Option.some.injEq] at he'
    subst he'
    rw [i2]
    cases hk : e.kind with
    | invite s =>
      simp only [hk, SKind.awaiting] at hw
      rw [hk] at ht
      by_cases h2 : r.is2xx = true
      · exfalso; apply ht; exact ⟨"2xx sent", by simp [SKind.feed, SI.step, hw, SI.sendFinal, h2]⟩
      · simp [SKind.feed, SI.step, hw, SI.sendFinal, h2, SKind.awaiting]
    | nonInvite s =>
      simp only [hk, SKind.awaiting] at hw
      simp [SKind.feed, SN.step, hw, SN.handleFinal, SKind.awaiting]

/-! ## C11 -/

/-- what a machine would repeat on a retransmitted request -/
def SKind.last : SKind → Option Bytes
  | .invite s => s.lastResponse
  | .nonInvite s => s.lastResponse

/-- the final an INVITE machine repeats on timer G is the last response it sent -/
def SKind.coherent : SKind → Prop
  | .invite s => s.state = .completed → s.lastFinal = s.lastResponse
  | .nonInvite _ => True

/-- last response of the transaction = last bytes on the wire -/
def LastSent (k : Key) (m : Mgr) (outs : List Out) : Prop :=
  ∀ e, m.server.get k = some e → e.kind.coherent ∧
    (e.kind.last = none ∨ e.kind.last = (responsesOf k outs).getLast?)

/-- the bytes a list of actions transmits -/
def sent : List SAction → List Bytes
  | [] => []
  | .transmit b :: as => b :: sent as
  | _ :: as => sent as

theorem applyServer_sent (net : Nat → Bool) (k : Key) (as : List SAction) (m : Mgr) (e : SEntry)
    (h : m.server.get k = some e) (hnt : ∀ w, .terminate w ∉ as) :
    responsesOf k (m.applyServer net k as).2 = sent as := by
  induction as generalizing m e with
  | nil => rfl
  | cons a as ih =>
    obtain ⟨e1, h1, _⟩ := applyServer_entry net k [a] m e h (fun w hw => hnt w (by simp_all))
    simp only [Mgr.applyServer, andThen] at h1 ⊢
    rw [responsesOf_append, ih _ e1 h1 (fun w hw => hnt w (by simp [hw]))]
    cases a <;> simp [Mgr.applyServer1, h, responsesOf, sent]

theorem sfeed_last (kd : SKind) (ev : SEv) (hc : kd.coherent) (hnt : ¬ SActs.terminates (kd.feed ev).2) :
    (kd.feed ev).1.coherent ∧
    ((sent (kd.feed ev).2 = [] ∧ (kd.feed ev).1.last = kd.last) ∨
     (∃ b, sent (kd.feed ev).2 = [b] ∧ (kd.feed ev).1.last = some b)) := by
  cases kd with
  | invite s =>
    obtain ⟨st, tm, gi, lr, lf⟩ := s
    cases ev with
    | timer t =>
      cases st <;> cases t <;>
        simp_all [SKind.feed, SI.step, SActs.terminates, sent, SI.handleTimerG, SI.handleTimerH,
          SI.handleTimerI, SKind.coherent, SKind.last]
      by_cases hg : tm.duration .G = 0
      · simp_all [sent]
      · cases lr <;> simp_all [sent]
    | final r =>
      by_cases h2 : r.is2xx = true
      · cases st <;> simp_all [SKind.feed, SI.step, SActs.terminates, sent, SI.sendFinal, SKind.coherent,
          SKind.last]
      · by_cases hg : tm.duration .G = 0 <;> cases st <;>
          simp_all [SKind.feed, SI.step, SActs.terminates, sent, SI.sendFinal, SKind.coherent, SKind.last]
    | retransmit =>
      cases st <;> cases lr <;> simp_all [SKind.feed, SI.step, SActs.terminates, sent, SI.onRetransmit,
        SKind.coherent, SKind.last]
    | received => cases st <;> simp_all [SKind.feed, SI.step, sent, SKind.coherent, SKind.last]
    | cancel => cases st <;> simp_all [SKind.feed, SI.step, sent, SKind.coherent, SKind.last]
    | provisional r =>
      cases st <;> simp_all [SKind.feed, SI.step, sent, SI.sendProvisional, SKind.coherent, SKind.last]
    | ack => cases st <;> simp_all [SKind.feed, SI.step, sent, SI.handleAck, SKind.coherent, SKind.last]
    | transportError =>
      cases st <;> simp_all [SKind.feed, SI.step, SActs.terminates, sent, SI.handleTransportError]
  | nonInvite s =>
    obtain ⟨st, tm, lr⟩ := s
    cases ev with
    | timer t =>
      cases st <;> cases t <;>
        simp_all [SKind.feed, SN.step, SActs.terminates, sent, SN.handleTimerJ, SKind.coherent, SKind.last]
    | final r => cases st <;> simp_all [SKind.feed, SN.step, sent, SN.handleFinal, SKind.coherent, SKind.last]
    | retransmit =>
      cases st <;> cases lr <;> simp_all [SKind.feed, SN.step, SActs.terminates, sent, SN.onRetransmit,
        SKind.coherent, SKind.last]
    | received => cases st <;> simp_all [SKind.feed, SN.step, sent, SKind.coherent, SKind.last]
    | cancel => cases st <;> simp_all [SKind.feed, SN.step, sent, SKind.coherent, SKind.last]
    | provisional r =>
      cases st <;> simp_all [SKind.feed, SN.step, sent, SN.handleProvisional, SKind.coherent, SKind.last]
    | ack => cases st <;> simp_all [SKind.feed, SN.step, SActs.terminates, sent, SN.handleAck,
        SKind.coherent, SKind.last]
    | transportError =>
      cases st <;> simp_all [SKind.feed, SN.step, SActs.terminates, sent, SN.handleTransportError]

theorem feed_lastSent (net : Nat → Bool) (k : Key) (ev : SEv) (m : Mgr) (outs : List Out)
    (h : LastSent k m outs) :
    LastSent k (m.feedServer net k ev).1 (outs ++ (m.feedServer net k ev).2) := by
  intro e' he'
  unfold Mgr.feedServer Mgr.stepServer at he' ⊢
  cases hg : m.server.get k with
  | none => simp only [hg] at he'; simp at he'
  | some e0 =>
    simp only [hg] at he' ⊢
    by_cases ht : SActs.terminates (e0.kind.feed ev).2
    · obtain ⟨w, hw⟩ := ht
      rw [applyServer_terminate net k _ _ w hw] at he'; simp at he'
    · obtain ⟨hc, hlast⟩ := h e0 hg
      obtain ⟨c1, c2⟩ := sfeed_last e0.kind ev hc ht
      have hnt : ∀ w, .terminate w ∉ (e0.kind.feed ev).2 := fun w hw => ht ⟨w, hw⟩
      have hgu : ({ m with server := (m.server.update k (fun x => { x with kind := (e0.kind.feed ev).1 })) } : Mgr).server.get k =
          some { e0 with kind := (e0.kind.feed ev).1 } := by simp [Tbl.get_update_self, hg]
      obtain ⟨e1, i1, i2, _⟩ := applyServer_entry net k _ _ _ hgu hnt
      rw [i1] at he'
      simp only [Option.some.injEq] at he'
      subst he'
      rw [i2, responsesOf_append, applyServer_sent net k _ _ _ hgu hnt]
      refine ⟨c1, ?_⟩
      rcases c2 with ⟨d1, d2⟩ | ⟨b, d1, d2⟩
      · simp only [d2, d1, List.append_nil]; exact hlast
      · right; simp only [d2, d1]; simp

theorem step_lastSent (net : Nat → Bool) (k : Key) (m : Mgr) (outs : List Out) (op : Op)
    (h : LastSent k m outs) : LastSent k (step net m op).1 (outs ++ (step net m op).2) := by
  have hc : ∀ m t outs, LastSent k m outs → LastSent k (m.cancelServer k t) outs := by
    intro m t outs h e he
    simp only [Mgr.cancelServer, Tbl.get_update_self] at he
    cases hg : m.server.get k with
    | none => simp [hg] at he
    | some e0 =>
      simp only [hg, Option.map_some, Option.some.injEq] at he
      subst he; exact h e0 hg
  refine step_server net k (LastSent k) ?_ ?_ ?_ ?_ ?_ ?_ ?_ m outs op h
  · intro m m' outs o hg _ _ ho h e he
    rw [responsesOf_append, other_server k o ho, List.append_nil]
    exact h e (hg ▸ he)
  · intro m outs _ e he; simp [Tbl.get_remove_self] at he
  · intro m outs ev _ _ h; exact feed_lastSent net k ev m outs h
  · intro m outs t h; exact feed_lastSent net k _ _ outs (hc m t outs h)
  · intro m outs t cs _ h; exact feed_lastSent net k _ _ outs (hc _ t outs h)
  · intro m outs cs _ h; exact feed_lastSent net k _ { m with pending := cs } outs h
  · intro m outs c now _ h e he
    obtain ⟨_, kd, h1, _, h3⟩ := enrol_entry net k c now m
    rw [h1] at he
    simp only [Option.some.injEq] at he
    subst he
    rcases h3 with ⟨rfl, _⟩ | ⟨s, rfl, hs, _⟩
    · exact ⟨by simp [SKind.coherent, SI.new], Or.inl rfl⟩
    · exact ⟨trivial, Or.inl hs⟩

theorem retransmit_feed (kd : SKind) :
    (kd.feed .retransmit).1 = kd ∧
    ((kd.feed .retransmit).2 = [] ∨ ∃ b, kd.last = some b ∧ (kd.feed .retransmit).2 = [.transmit b]) := by
  cases kd with
  | invite s =>
    obtain ⟨st, tm, gi, lr, lf⟩ := s
    cases st <;> cases lr <;> simp [SKind.feed, SI.step, SI.onRetransmit, SKind.last]
  | nonInvite s =>
    obtain ⟨st, tm, lr⟩ := s
    cases st <;> cases lr <;> simp [SKind.feed, SN.step, SN.onRetransmit, SKind.last]

/-- **C11, what holds.** While a server transaction is live, a further copy of its request (same
branch and method; not an ACK for an INVITE transaction) creates nothing: no entry appears or
disappears on either side, the transaction's own state is unchanged, and the only effect, if any, is
one more copy of the last response sent for it.  Missing from C11: that the copy is not delivered to
the application, see `C11_copies_look_alike`. -/
theorem C11_absorbed_partial (net : Nat → Bool) (ms mc t1 t2 t4 : Nat) (ops : List Op) (method : Method)
    (via : Option Str) (fresh : Str) (c : Ctx) (now : Nat) (e : SEntry)
    (he : (runOps net (Mgr.init ms mc t1 t2 t4) ops).1.server.get (requestKey method via fresh) = some e)
    (hack : ¬ (method = .ack ∧
      (runOps net (Mgr.init ms mc t1 t2 t4) ops).1.hasInvite (requestKey method via fresh).toInvite)) :
    let k := requestKey method via fresh
    let r0 := runOps net (Mgr.init ms mc t1 t2 t4) ops
    let r := step net r0.1 (.request method via fresh c now)
    r.1.client = r0.1.client ∧ r.1.server.keys = r0.1.server.keys ∧ r.1.server.get k = some e ∧
    (∀ k', k' ≠ k → r.1.server.get k' = r0.1.server.get k') ∧
    (r.2 = [] ∨ ∃ b ok, r.2 = [.respond k e.ctx b ok] ∧ (responsesOf k r0.2).getLast? = some b) := by
  have hls := runOps_inv net (LastSent (requestKey method via fresh)) (fun _ => True)
    (fun m outs op _ h => step_lastSent net _ m outs op h) (Mgr.init ms mc t1 t2 t4) [] ops (by simp)
    (by intro e he; simp [Mgr.init, Tbl.get] at he)
  simp only [List.nil_append] at hls
  generalize runOps net (Mgr.init ms mc t1 t2 t4) ops = r0 at he hack hls
  obtain ⟨m, outs⟩ := r0
  simp only [step, Mgr.receiveRequest] at he hack hls ⊢
  generalize requestKey method via fresh = k at he hack hls
  have hcont : m.server.contains k = true := by simp [Tbl.contains, he]
  obtain ⟨hc, hlast⟩ := hls e he
  rw [if_neg hack, if_pos hcont]
  obtain ⟨hr1, hr2⟩ := retransmit_feed e.kind
  simp only [Mgr.feedServer, Mgr.stepServer, he, hr1]
  have hget : (m.server.update k (fun x => { x with kind := e.kind })).get k = some e := by
    simp [Tbl.get_update_self, he]
  rcases hr2 with hr2 | ⟨b, hb, hr2⟩
  · rw [hr2]
    simp only [Mgr.applyServer]
    refine ⟨trivial, by simp, hget, ?_, Or.inl trivial⟩
    intro k' hk'
    exact Tbl.get_update_ne _ _ hk'
  · rw [hr2]
    simp only [Mgr.applyServer, andThen, Mgr.applyServer1, hget]
    refine ⟨trivial, by simp, trivial, ?_, Or.inr ⟨b, net m.sends, by simp, ?_⟩⟩
    · intro k' hk'
      exact Tbl.get_update_ne _ _ hk'
    · rcases hlast with h | h
      · rw [hb] at h; simp at h
      · rw [← h, hb]

/-- **C11, what fails.** The handle `receive_request` returns does not depend on the state of the
manager (except for an ACK): the application gets the same answer for the first copy of a request and
for a retransmission of it, and so cannot tell them apart.  The caller in `siphond`
(main.rs 684-693) passes every one of them to its dispatcher. -/
theorem C11_copies_look_alike (net : Nat → Bool) (m m' : Mgr) (method : Method) (via : Option Str)
    (fresh : Str) (c c' : Ctx) (now now' : Nat) (h : method ≠ .ack) :
    (m.receiveRequest net method via fresh c now).2.2 = (m'.receiveRequest net method via fresh c' now').2.2 := by
  have : ∀ (m : Mgr) (c : Ctx) (now : Nat),
      (m.receiveRequest net method via fresh c now).2.2 = requestKey method via fresh := by
    intro m c now
    unfold Mgr.receiveRequest
    simp only [h, false_and, if_false]
    split <;> rfl
  rw [this, this]

private def viaS : Str := "SIP/2.0/UDP h;branch=z9hG4bKs".toList
private def kS : Key := ⟨"z9hG4bKs".toList, .invite, true⟩
private def kR : Key := ⟨"z9hG4bKs".toList, .register, true⟩
private def cS : Ctx := ⟨.udp, 1⟩
private def reqI : Op := .request .invite (some viaS) [] cS 0
private def reqR : Op := .request .register (some viaS) [] cS 0

/-- an INVITE, a provisional answer and two copies of the INVITE: the 180 is on the wire three times,
there is one transaction, and the hypotheses of `C11_absorbed_partial` and `C09_manager` are met -/
example :
    let r := runOps (fun _ => true) (Mgr.init 10 10 500 4000 5000)
      [reqI, .sendProvisional kS ⟨180, false, [1, 8]⟩, reqI, reqI]
    requestKey .invite (some viaS) [] = kS ∧ (r.1.server.get kS).isSome = true ∧
    responsesOf kS r.2 = [[1, 8], [1, 8], [1, 8]] ∧ r.1.server.length = 1 := by decide +kernel

/-- after a 486 the entry has timer H; after a 200 to a REGISTER it has J -/
example :
    let r := runOps (fun _ => true) (Mgr.init 10 10 500 4000 5000)
      [reqI, .sendFinal kS ⟨486, false, [4]⟩, reqR, .sendFinal kR ⟨200, false, [2]⟩]
    (r.1.server.get kS).map (·.timers) = some [.H, .G] ∧
    (r.1.server.get kR).map (·.timers) = some [.J] := by decide +kernel

/-- Finding: a server INVITE transaction leaves the table as soon as its 2xx is sent, so a copy of the
INVITE that arrives later (the 2xx was lost) opens a new transaction. -/
theorem C11_after_2xx_new_transaction :
    let m := (runOps (fun _ => true) (Mgr.init 10 10 500 4000 5000)
      [reqI, .sendFinal kS ⟨200, false, [2]⟩]).1
    m.server.length = 0 ∧
    ((step (fun _ => true) m reqI).1.server.get kS).map (·.kind.last) = some none := by decide +kernel

/-- Finding: an ACK that matches no INVITE transaction (the ACK of a 2xx has its own branch) opens a
non-INVITE server transaction; nothing answers an ACK, so it has no timer and waits for ever. -/
theorem C09_stray_ack_stays :
    let r := runOps (fun _ => true) (Mgr.init 10 10 500 4000 5000) [.request .ack (some viaS) [] cS 0]
    (r.1.server.get ⟨"z9hG4bKs".toList, .ack, true⟩).map (·.timers) = some [] ∧ r.1.pending = [] := by
  decide +kernel

/-- Finding: a CANCEL given to the INVITE transaction it matches has no effect on it (the machine
ignores it): the INVITE still waits for the application. -/
theorem C11_cancel_ignored :
    let m := (runOps (fun _ => true) (Mgr.init 10 10 500 4000 5000) [reqI]).1
    (step (fun _ => true) m (.request .cancel (some viaS) [] cS 1)).1.server.get kS = m.server.get kS := by
  decide +kernel

end Siphon.Manager
