import Verif.Manager.LemmasEntry
/-! Proof internals: every live entry has a timer that ends it. -/

namespace Siphon.Manager
open Siphon.Fsm
set_option linter.unusedSimpArgs false

def CActs.keeps (t : Timer) : CActs → Prop → Prop
  | .invite as, p => keepsCI t as p
  | .nonInvite as, p => keepsCN t as p

def CActs.terminates : CActs → Prop
  | .invite as => ∃ w, .terminate w ∈ as
  | .nonInvite as => ∃ w, .terminate w ∈ as

def liveC (G : Timer → Prop) : CKind → Prop
  | .invite s => ((s.state = .calling ∨ s.state = .proceeding) ∧ G .B) ∨ (s.state = .completed ∧ G .D)
  | .nonInvite s => ((s.state = .trying ∨ s.state = .proceeding) ∧ G .F) ∨ (s.state = .completed ∧ G .K)

/-- the timer that ends a live client transaction -/
def CKind.bound : CKind → Timer
  | .invite s => if s.state = .completed then .D else .B
  | .nonInvite s => if s.state = .completed then .K else .F

theorem ci_live (G : Timer → Prop) (s : CI) (ev : CEv) (h : liveC G (.invite s)) :
    ((CKind.invite s).feed ev).1.isTerminated = true ∨
    (¬ ((CKind.invite s).feed ev).2.terminates ∧
     liveC (fun u => ((CKind.invite s).feed ev).2.keeps u (G u ∧ ev ≠ .timer u))
       ((CKind.invite s).feed ev).1) := by
  obtain ⟨st, tm, ai, li⟩ := s
  cases ev with
  | timer t =>
    cases st <;> cases t <;>
      simp_all [CKind.feed, CI.step, liveC, CKind.isTerminated, CActs.terminates, CActs.keeps, keepsCI,
        CI.handleTimerA, CI.handleTimerB, CI.handleTimerD]
    by_cases ha : tm.duration .A = 0
    · simp_all [liveC, CActs.terminates, CActs.keeps, keepsCI]
    · cases li <;> simp_all [liveC, CActs.terminates, CActs.keeps, keepsCI]
  | provisional r =>
    cases st <;>
      simp_all [CKind.feed, CI.step, liveC, CKind.isTerminated, CActs.terminates, CActs.keeps, keepsCI,
        CI.handleProvisional] <;> (split <;> simp_all [keepsCI])
  | final r =>
    by_cases h2 : r.is2xx = true
    · cases st <;>
        simp_all [CKind.feed, CI.step, liveC, CKind.isTerminated, CActs.terminates, CActs.keeps,
          keepsCI, CI.handleFinal, CI.handleFinal2xx, CI.handleFinalNon2xx]
    · cases st <;>
        simp_all [CKind.feed, CI.step, liveC, CKind.isTerminated, CActs.terminates, CActs.keeps,
          keepsCI, CI.handleFinal, CI.handleFinal2xx, CI.handleFinalNon2xx]
  | transportError =>
    cases st <;>
      simp_all [CKind.feed, CI.step, liveC, CKind.isTerminated, CActs.terminates, CActs.keeps, keepsCI,
        CI.handleTransportError]

theorem cn_live (G : Timer → Prop) (s : CN) (ev : CEv) (h : liveC G (.nonInvite s)) :
    ((CKind.nonInvite s).feed ev).1.isTerminated = true ∨
    (¬ ((CKind.nonInvite s).feed ev).2.terminates ∧
     liveC (fun u => ((CKind.nonInvite s).feed ev).2.keeps u (G u ∧ ev ≠ .timer u))
       ((CKind.nonInvite s).feed ev).1) := by
  obtain ⟨st, tm, ai, li⟩ := s
  cases ev with
  | timer t =>
    cases st <;> cases t <;>
      simp_all [CKind.feed, CN.step, liveC, CKind.isTerminated, CActs.terminates, CActs.keeps, keepsCN,
        CN.handleTimerE, CN.handleTimerF, CN.handleTimerK] <;>
    (by_cases ha : tm.duration .E = 0
     · simp_all [liveC, CActs.terminates, CActs.keeps, keepsCN]
     · cases li <;> simp_all [liveC, CActs.terminates, CActs.keeps, keepsCN])
  | provisional r =>
    cases st <;>
      simp_all [CKind.feed, CN.step, liveC, CKind.isTerminated, CActs.terminates, CActs.keeps, keepsCN,
        CN.handleProvisional]
  | final r =>
    cases st <;>
      simp_all [CKind.feed, CN.step, liveC, CKind.isTerminated, CActs.terminates, CActs.keeps,
        keepsCN, CN.handleFinal]
  | transportError =>
    cases st <;>
      simp_all [CKind.feed, CN.step, liveC, CKind.isTerminated, CActs.terminates, CActs.keeps, keepsCN,
        CN.handleTransportError]

theorem feed_live (G : Timer → Prop) (kd : CKind) (ev : CEv) (h : liveC G kd) :
    (kd.feed ev).1.isTerminated = true ∨
    (¬ (kd.feed ev).2.terminates ∧
     liveC (fun u => (kd.feed ev).2.keeps u (G u ∧ ev ≠ .timer u)) (kd.feed ev).1) := by
  cases kd with
  | invite s => exact ci_live G s ev h
  | nonInvite s => exact cn_live G s ev h

/-- the kind of actions matches the kind of machine -/
def CActs.fits : CActs → CKind → Prop
  | .invite _, .invite _ => True
  | .nonInvite _, .nonInvite _ => True
  | _, _ => False

theorem liveC_mono (G H : Timer → Prop) (kd : CKind) (hGH : ∀ t, G t → H t) (h : liveC G kd) :
    liveC H kd := by
  cases kd with
  | invite s =>
    rcases h with ⟨h1, h2⟩ | ⟨h1, h2⟩
    · exact Or.inl ⟨h1, hGH _ h2⟩
    · exact Or.inr ⟨h1, hGH _ h2⟩
  | nonInvite s =>
    rcases h with ⟨h1, h2⟩ | ⟨h1, h2⟩
    · exact Or.inl ⟨h1, hGH _ h2⟩
    · exact Or.inr ⟨h1, hGH _ h2⟩

/-- applying the actions of a step to the entry: gone if the machine ended, live otherwise -/
theorem applyClient_live (net : Nat → Bool) (k : Key) (as : CActs) (m : Mgr) (e : CEntry)
    (h : m.client.get k = some e)
    (hl : e.kind.isTerminated = true ∨
      (¬ as.terminates ∧ liveC (fun u => as.keeps u (GuardC k m e u)) e.kind)) :
    ∀ e', (m.applyClient net k as).1.client.get k = some e' →
      liveC (GuardC k (m.applyClient net k as).1 e') e'.kind ∧ e'.tu = e.tu ∧ e'.kind = e.kind := by
  intro e' he'
  cases as with
  | invite as =>
    by_cases ht : ∃ w, .terminate w ∈ as
    · obtain ⟨w, hw⟩ := ht
      have := applyCI_terminate net k as m w hw
      simp only [Mgr.applyClient] at he'
      rw [reap_none k _ this] at he'
      simp at he'
    · obtain ⟨e1, h1, hk, htu, hg⟩ := applyCI_entry net k as m e h (by simpa using ht)
      simp only [Mgr.applyClient] at he' ⊢
      rw [reap_some k _ e1 h1] at he'
      by_cases hterm : e1.kind.isTerminated = true
      · simp [hterm] at he'
      · simp only [hterm] at he'
        simp only [Bool.false_eq_true, if_false, Option.some.injEq] at he'
        subst he'
        rcases hl with hl | ⟨_, hl⟩
        · rw [hk] at hterm; exact absurd hl hterm
        · refine ⟨?_, htu, hk⟩
          rw [hk]
          refine liveC_mono _ _ _ ?_ hl
          intro t ht
          have := hg t ht
          simpa [GuardC, reap_pending] using this
  | nonInvite as =>
    by_cases ht : ∃ w, .terminate w ∈ as
    · obtain ⟨w, hw⟩ := ht
      have := applyCN_terminate net k as m w hw
      simp only [Mgr.applyClient] at he'
      rw [reap_none k _ this] at he'
      simp at he'
    · obtain ⟨e1, h1, hk, htu, hg⟩ := applyCN_entry net k as m e h (by simpa using ht)
      simp only [Mgr.applyClient] at he' ⊢
      rw [reap_some k _ e1 h1] at he'
      by_cases hterm : e1.kind.isTerminated = true
      · simp [hterm] at he'
      · simp only [hterm] at he'
        simp only [Bool.false_eq_true, if_false, Option.some.injEq] at he'
        subst he'
        rcases hl with hl | ⟨_, hl⟩
        · rw [hk] at hterm; exact absurd hl hterm
        · refine ⟨?_, htu, hk⟩
          rw [hk]
          refine liveC_mono _ _ _ ?_ hl
          intro t ht
          have := hg t ht
          simpa [GuardC, reap_pending] using this

theorem CActs.keeps_mono (t : Timer) (as : CActs) (p q : Prop) (h : p → q) (hk : as.keeps t p) :
    as.keeps t q := by
  cases as with
  | invite as => exact keepsCI_mono t as p q h hk
  | nonInvite as => exact keepsCN_mono t as p q h hk

/-- stepping a live entry (with guards `G` for every timer except possibly the one that fired) -/
theorem stepApply_live (net : Nat → Bool) (k : Key) (ev : CEv) (m : Mgr) (e0 : CEntry)
    (h : m.client.get k = some e0) (G : Timer → Prop)
    (hG : ∀ u, (G u ∧ ev ≠ .timer u) → GuardC k m e0 u) (hl : liveC G e0.kind) :
    ∀ m' e as, m.stepClient k ev = some (m', e, as) →
      ∀ e', (m'.applyClient net k as).1.client.get k = some e' →
        liveC (GuardC k (m'.applyClient net k as).1 e') e'.kind := by
  intro m' e as hs e' he'
  simp only [Mgr.stepClient, h, Option.some.injEq, Prod.mk.injEq] at hs
  obtain ⟨rfl, rfl, rfl⟩ := hs
  refine (applyClient_live net k _ _ { e0 with kind := (e0.kind.feed ev).1 } ?_ ?_ e' he').1
  · simp [Tbl.get_update_self, h]
  · rcases feed_live G e0.kind ev hl with h1 | ⟨h1, h2⟩
    · exact Or.inl h1
    · refine Or.inr ⟨h1, ?_⟩
      refine liveC_mono _ _ _ ?_ h2
      intro t ht
      refine CActs.keeps_mono t _ _ _ ?_ ht
      intro hh
      have := hG t hh
      simpa [GuardC] using this

/-- invariant: the entry of `k`, if any, is live -/
def LiveC (k : Key) (m : Mgr) : Prop :=
  ∀ e, m.client.get k = some e → liveC (GuardC k m e) e.kind

theorem mem_pendC (k : Key) (t : Timer) (l : List Cmd) :
    Cmd.clientTimer k t ∈ l ↔ Cmd.clientTimer k t ∈ pendC k l := by
  simp [pendC, Cmd.clientKey]

theorem mem_pendS (k : Key) (t : Timer) (l : List Cmd) :
    Cmd.serverTimer k t ∈ l ↔ Cmd.serverTimer k t ∈ pendS k l := by
  simp [pendS, Cmd.serverKey]

theorem timer_live (net : Nat → Bool) (k : Key) (t : Timer) (m : Mgr) (G : CEntry → Timer → Prop)
    (hG : ∀ e u, m.client.get k = some e → G e u → u ≠ t → GuardC k m e u)
    (hl : ∀ e, m.client.get k = some e → liveC (G e) e.kind) :
    LiveC k (m.handleClientTimer net k t).1 := by
  intro e' he'
  unfold Mgr.handleClientTimer at he' ⊢
  cases hs : (m.cancelClient k t).stepClient k (.timer t) with
  | none =>
    simp only [hs] at he'
    simp [Mgr.stepClient, Mgr.cancelClient, Tbl.get_update_self, he'] at hs
  | some p =>
    obtain ⟨m', e, as⟩ := p
    simp only [hs] at he' ⊢
    cases hg : m.client.get k with
    | none => simp [Mgr.stepClient, Mgr.cancelClient, Tbl.get_update_self, hg] at hs
    | some e0 =>
      obtain ⟨e1, h1, hk, _, hgd⟩ := cancel_guard k t m e0 hg
      refine stepApply_live net k (.timer t) _ e1 h1 (G e0) ?_ (by rw [hk]; exact hl e0 hg) m' e as hs e' he'
      intro u hu
      have hne : u ≠ t := by rintro rfl; exact hu.2 rfl
      exact hgd u ⟨hG e0 u hg hu.1 hne, hne⟩

theorem error_gone (net : Nat → Bool) (k : Key) (m : Mgr) :
    (m.processClientError net k).1.client.get k = none := by
  unfold Mgr.processClientError Mgr.stepClient
  cases hg : m.client.get k with
  | none => exact hg
  | some e =>
    simp only
    cases hkd : e.kind with
    | invite s =>
      have : (CKind.feed (.invite s) .transportError).2 = .invite [.terminate "transport error"] := by
        simp only [CKind.feed, CI.step]
        cases s.state <;> rfl
      rw [this]
      simp only [Mgr.applyClient]
      exact reap_none k _ (applyCI_terminate net k _ _ "transport error" (by simp))
    | nonInvite s =>
      have : (CKind.feed (.nonInvite s) .transportError).2 = .nonInvite [.terminate "transport error"] := by
        simp only [CKind.feed, CN.step]
        cases s.state <;> rfl
      rw [this]
      simp only [Mgr.applyClient]
      exact reap_none k _ (applyCN_terminate net k _ _ "transport error" (by simp))

theorem launch_live (net : Nat → Bool) (k : Key) (b : Bytes) (c : Ctx) (rem : List Ctx) (tu now : Nat)
    (m : Mgr) : LiveC k (m.launch net k b c rem tu now).1 := by
  intro e' he'
  unfold Mgr.launch at he' ⊢
  by_cases hi : k.method = .invite
  · simp only [hi, if_true] at he' ⊢
    refine (applyClient_live net k _ _ _ (Tbl.get_insert_self _ _ _) ?_ e' he').1
    right
    constructor
    · by_cases ha : (m.timersFor c).duration .A = 0 <;>
        simp [CI.step, CI.new, CI.handleSendInvite, CActs.terminates, ha]
    · simp only [CI.step, CI.new, CI.handleSendInvite, liveC, CActs.keeps]
      left
      refine ⟨by simp, ?_⟩
      by_cases ha : (m.timersFor c).duration .A = 0 <;> simp [keepsCI, ha]
  · simp only [hi, if_false] at he' ⊢
    refine (applyClient_live net k _ _ _ (Tbl.get_insert_self _ _ _) ?_ e' he').1
    right
    constructor
    · by_cases ha : (m.timersFor c).duration .E = 0 <;>
        simp [CN.step, CN.new, CN.handleInitialSend, CActs.terminates, ha]
    · simp only [CN.step, CN.new, CN.handleInitialSend, liveC, CActs.keeps]
      left
      refine ⟨by simp, ?_⟩
      by_cases ha : (m.timersFor c).duration .E = 0 <;> simp [keepsCN, ha]

theorem step_liveC (net : Nat → Bool) (k : Key) (m : Mgr) (op : Op) (h : LiveC k m) :
    LiveC k (step net m op).1 := by
  refine step_client net k (fun m _ => LiveC k m) True ?_ ?_ ?_ ?_ ?_ ?_ ?_ m [] op (fun _ => trivial) h
  · intro m m' _ _ hg _ hp _ hl e he
    rw [hg] at he
    refine liveC_mono _ _ _ ?_ (hl e he)
    intro t ht
    unfold GuardC at ht ⊢
    rw [mem_pendC, hp, ← mem_pendC]
    exact ht
  · intro m _ e _ _ e' he'
    simp [Tbl.get_remove_self] at he'
  · intro m _ r hl e' he'
    unfold Mgr.dispatchResponse at he' ⊢
    cases hs : m.stepClient k (if r.code < 200 then .provisional r else .final r) with
    | none => simp only [hs] at he' ⊢; exact hl e' he'
    | some p =>
      obtain ⟨m', e, as⟩ := p
      simp only [hs] at he' ⊢
      cases hg : m.client.get k with
      | none => simp [Mgr.stepClient, hg] at hs
      | some e0 =>
        exact stepApply_live net k _ m e0 hg (GuardC k m e0) (fun u hu => hu.1) (hl e0 hg) m' e as hs e' he'
  · intro m _ t hl
    exact timer_live net k t m (GuardC k m) (fun e u _ h _ => h) hl
  · intro m _ t cs hp hl
    refine timer_live net k t { m with pending := cs } (GuardC k m) ?_ hl
    intro e u _ hG hne
    rcases hG with hG | hG
    · exact Or.inl hG
    · right
      rw [hp] at hG
      rcases List.mem_cons.mp hG with hG | hG
      · cases hG; exact absurd rfl hne
      · exact hG
  · intro m _ cs _ _ e' he'
    rw [error_gone] at he'
    simp at he'
  · intro m _ b c rem tu now _ _ _
    exact launch_live net k b c rem tu now m

/-- the bounding timer of a live client entry ends it -/
theorem bound_ends (net : Nat → Bool) (k : Key) (m : Mgr) (e : CEntry) (hg : m.client.get k = some e)
    (G : Timer → Prop) (hl : liveC G e.kind) :
    (m.handleClientTimer net k e.kind.bound).1.client.get k = none := by
  obtain ⟨kd, c, tu, tms, st, rem⟩ := e
  unfold Mgr.handleClientTimer
  simp only [Mgr.stepClient, Mgr.cancelClient, Tbl.get_update_self, hg, Option.map_some]
  cases kd with
  | invite s =>
    obtain ⟨st', tm, ai, li⟩ := s
    rcases hl with ⟨h1 | h1, _⟩ | ⟨h1, _⟩ <;> simp only at h1 <;> subst h1
    · have : (CKind.feed (.invite ⟨.calling, tm, ai, li⟩) (.timer .B)).2 =
          .invite [.cancel .A, .terminate "Timer B expired"] := rfl
      simp only [CKind.bound, reduceCtorEq, if_false, this, Mgr.applyClient]
      exact reap_none k _ (applyCI_terminate net k _ _ "Timer B expired" (by simp))
    · have : (CKind.feed (.invite ⟨.proceeding, tm, ai, li⟩) (.timer .B)).2 =
          .invite [.cancel .A, .terminate "Timer B expired"] := rfl
      simp only [CKind.bound, reduceCtorEq, if_false, this, Mgr.applyClient]
      exact reap_none k _ (applyCI_terminate net k _ _ "Timer B expired" (by simp))
    · simp only [CKind.bound, if_true, CKind.feed, CI.step, CI.handleTimerD]
      cases hr : (Mgr.applyClient net k (CActs.invite [CIAction.cancel Timer.D]) _).1.client.get k with
      | none => rfl
      | some e' =>
        exfalso
        have h2 := (applyClient_live net k (.invite [.cancel .D]) _ _
          (by simp [Tbl.get_update_self, hg]; rfl) (Or.inl (by simp [CKind.isTerminated])) e' hr)
        obtain ⟨h3, _, h4⟩ := h2
        rw [h4] at h3
        simp [liveC] at h3
  | nonInvite s =>
    obtain ⟨st', tm, ai, li⟩ := s
    rcases hl with ⟨h1 | h1, _⟩ | ⟨h1, _⟩ <;> simp only at h1 <;> subst h1
    · have : (CKind.feed (.nonInvite ⟨.trying, tm, ai, li⟩) (.timer .F)).2 =
          .nonInvite [.cancel .E, .terminate "Timer F expired"] := rfl
      simp only [CKind.bound, reduceCtorEq, if_false, this, Mgr.applyClient]
      exact reap_none k _ (applyCN_terminate net k _ _ "Timer F expired" (by simp))
    · have : (CKind.feed (.nonInvite ⟨.proceeding, tm, ai, li⟩) (.timer .F)).2 =
          .nonInvite [.cancel .E, .terminate "Timer F expired"] := rfl
      simp only [CKind.bound, reduceCtorEq, if_false, this, Mgr.applyClient]
      exact reap_none k _ (applyCN_terminate net k _ _ "Timer F expired" (by simp))
    · simp only [CKind.bound, if_true, CKind.feed, CN.step, CN.handleTimerK]
      cases hr : (Mgr.applyClient net k (CActs.nonInvite [CNAction.cancel Timer.K]) _).1.client.get k with
      | none => rfl
      | some e' =>
        exfalso
        have h2 := (applyClient_live net k (.nonInvite [.cancel .K]) _ _
          (by simp [Tbl.get_update_self, hg]; rfl) (Or.inl (by simp [CKind.isTerminated])) e' hr)
        obtain ⟨h3, _, h4⟩ := h2
        rw [h4] at h3
        simp [liveC] at h3

end Siphon.Manager
