import Verif.Manager.Lemmas
/-! Proof internals: induction over the life of one server transaction, and table sizes. -/

namespace Siphon.Manager
open Siphon.Fsm
set_option linter.unusedSimpArgs false

/-- Insert a fresh machine and feed it its request: `createServer` after the limit check. -/
def Mgr.enrol (net : Nat → Bool) (k : Key) (c : Ctx) (now : Nat) (m : Mgr) : Mgr × List Out :=
  let tm := m.timersFor c
  let kind : SKind := match k.method with
    | .invite => .invite (SI.new tm)
    | _ => .nonInvite (SN.new tm)
  let r := kind.feed .received
  Mgr.applyServer net k r.2 { m with server := m.server.insert k ⟨r.1, c, [], now⟩ }

theorem createServer_eq (net : Nat → Bool) (k : Key) (c : Ctx) (now : Nat) (m : Mgr) :
    m.createServer net k c now = Mgr.enrol net k c now m.enforceServer := rfl

theorem enrol_frame (net : Nat → Bool) (k : Key) (c : Ctx) (now : Nat) (m : Mgr) :
    ∃ e, SFrame k { m with server := m.server.insert k e } (Mgr.enrol net k c now m) :=
  ⟨_, sframe_apply net k _ _⟩

theorem step_server (net : Nat → Bool) (k : Key) (P : Mgr → List Out → Prop)
    (frame : ∀ m m' outs o, m'.server.get k = m.server.get k → m'.cfg = m.cfg →
      pendS k m'.pending = pendS k m.pending → (∀ x ∈ o, x.serverKey ≠ some k) → P m outs →
      P m' (outs ++ o))
    (evict : ∀ m outs, P m outs → P { m with server := m.server.remove k } outs)
    (feed : ∀ m outs ev, (∀ t, ev ≠ .timer t) → ev ≠ .transportError → P m outs →
      P (m.feedServer net k ev).1 (outs ++ (m.feedServer net k ev).2))
    (timer : ∀ m outs t, P m outs →
      P (m.handleServerTimer net k t).1 (outs ++ (m.handleServerTimer net k t).2))
    (qtimer : ∀ m outs t cs, m.pending = .serverTimer k t :: cs → P m outs →
      P (Mgr.handleServerTimer net k t { m with pending := cs }).1
        (outs ++ (Mgr.handleServerTimer net k t { m with pending := cs }).2))
    (qerror : ∀ m outs cs, m.pending = .serverError k :: cs → P m outs →
      P (Mgr.processServerError net k { m with pending := cs }).1
        (outs ++ (Mgr.processServerError net k { m with pending := cs }).2))
    (enrol : ∀ m outs c now, k.isServer = true → P m outs →
      P (m.enrol net k c now).1 (outs ++ (m.enrol net k c now).2))
    (m : Mgr) (outs : List Out) (op : Op) (hP : P m outs) :
    P (step net m op).1 (outs ++ (step net m op).2) := by
  have sf : ∀ (k' : Key) (m : Mgr) (outs : List Out) (r : Mgr × List Out), k' ≠ k → SFrame k' m r →
      P m outs → P r.1 (outs ++ r.2) := by
    intro k' m outs r hk h hP
    refine frame m r.1 outs r.2 (h.other k (Ne.symm hk)) h.cfg (h.pend k (Ne.symm hk)) ?_ hP
    intro x hx
    rw [(h.outs x hx).1]
    simpa using hk
  have cf : ∀ (k' : Key) (m : Mgr) (outs : List Out) (r : Mgr × List Out), CFrame k' m r →
      P m outs → P r.1 (outs ++ r.2) := by
    intro k' m outs r h hP
    refine frame m r.1 outs r.2 (by rw [h.server]) h.cfg (h.pendS k) ?_ hP
    intro x hx
    rw [(h.outs x hx).2]
    simp
  have fd : ∀ (k' : Key) (ev : SEv) (m : Mgr) (outs : List Out), (∀ t, ev ≠ .timer t) →
      ev ≠ .transportError → P m outs →
      P (m.feedServer net k' ev).1 (outs ++ (m.feedServer net k' ev).2) := by
    intro k' ev m outs h1 h2 hP
    by_cases hk : k' = k
    · subst hk; exact feed m outs ev h1 h2 hP
    · exact sf k' m outs _ hk (sframe_feed net k' ev m) hP
  cases op with
  | request method via fresh c now =>
    simp only [step, Mgr.receiveRequest]
    split
    · exact fd _ _ m outs (by simp) (by simp) hP
    · split
      · exact fd _ _ m outs (by simp) (by simp) hP
      · have create : ∀ (m : Mgr) (outs : List Out) (k' : Key), k'.isServer = true → P m outs →
            P (m.createServer net k' c now).1 (outs ++ (m.createServer net k' c now).2) := by
          intro m outs k' hs hP
          rw [createServer_eq]
          have hen : P m.enforceServer outs := by
            rcases enforceServer_cases m with h | ⟨k'', h⟩
            · rw [h]; exact hP
            · rw [h]
              by_cases hk : k'' = k
              · subst hk; exact evict m outs hP
              · have := sf k'' m outs _ hk (sframe_remove k'' m) hP
                simpa using this
          generalize m.enforceServer = m1 at *
          by_cases hk : k' = k
          · subst hk; exact enrol m1 outs c now hs hen
          · obtain ⟨e, he⟩ := enrol_frame net k' c now m1
            refine sf k' _ outs _ hk he ?_
            have := frame m1 { m1 with server := m1.server.insert k' e } outs []
              (Tbl.get_insert_ne _ _ (Ne.symm hk)) rfl rfl (by simp) hen
            simpa using this
        simp only [andThen]
        rw [← List.append_assoc]
        apply create _ _ _ rfl
        split
        · exact fd _ _ m outs (by simp) (by simp) hP
        · simpa using hP
  | start method via b targets tu now =>
    simp only [step, Mgr.startClient]
    split
    · rename_i c rem branch hb
      simp only [andThen]
      rw [← List.append_assoc]
      have hen : P m.enforceClient.1 (outs ++ m.enforceClient.2) := by
        rcases enforceClient_cases m with h | ⟨k', e, hg, h⟩
        · rw [h]; simpa using hP
        · rw [h]
          exact cf k' m outs _
              (CFrame.emit (cframe_remove k' m) _ (by simp [Out.clientKey, Out.serverKey])) hP
      generalize m.enforceClient.1 = m1 at *
      generalize outs ++ m.enforceClient.2 = outs1 at *
      obtain ⟨e, he⟩ := launch_frame net ⟨branch, method, false⟩ b c rem tu now m1
      refine cf _ _ outs1 _ he ?_
      have := frame m1 { m1 with client := m1.client.insert ⟨branch, method, false⟩ e } outs1 []
        rfl rfl rfl (by simp) hen
      simpa using this
    · simpa using hP
  | response via cseq r =>
    simp only [step, Mgr.receiveResponse]
    split
    · exact cf _ m outs _ (cframe_response net _ r m) hP
    · simpa using hP
  | serverTimer k' t =>
    by_cases hk : k' = k
    · subst hk; exact timer m outs t hP
    · exact sf k' m outs _ hk (sframe_timer net k' t m) hP
  | clientTimer k' t => exact cf k' m outs _ (cframe_timer net k' t m) hP
  | command =>
    simp only [step, Mgr.command]
    cases hp : m.pending with
    | nil => simpa using hP
    | cons c cs =>
      simp only
      have popped : ∀ c, c.serverKey ≠ some k → m.pending = c :: cs →
          P { m with pending := cs } outs := by
        intro c hc hp
        have := frame m { m with pending := cs } outs [] rfl rfl ?_ (by simp) hP
        · simpa using this
        · simp [hp, pendS, hc]
      cases c with
      | clientTimer k' t =>
        exact cf k' _ outs _ (cframe_timer net k' t _) (popped _ (by simp [Cmd.serverKey]) hp)
      | serverTimer k' t =>
        by_cases hk : k' = k
        · subst hk; exact qtimer m outs t cs hp hP
        · exact sf k' _ outs _ hk (sframe_timer net k' t _)
            (popped _ (by simpa [Cmd.serverKey] using hk) hp)
      | serverError k' =>
        by_cases hk : k' = k
        · subst hk; exact qerror m outs cs hp hP
        · exact sf k' _ outs _ hk (sframe_feed net k' _ _)
            (popped _ (by simpa [Cmd.serverKey] using hk) hp)
      | clientError k' =>
        exact cf k' _ outs _ (cframe_error net k' _) (popped _ (by simp [Cmd.serverKey]) hp)
  | sendProvisional k' r => exact fd _ _ m outs (by simp) (by simp) hP
  | sendFinal k' r => exact fd _ _ m outs (by simp) (by simp) hP
  | ack k' =>
    simp only [step, Mgr.ackReceived]
    split
    · exact fd _ _ m outs (by simp) (by simp) hP
    · simpa using hP

/-! ## Table sizes -/

def Sized (m : Mgr) : Prop :=
  m.server.keys.Nodup ∧ m.client.keys.Nodup ∧
  (1 ≤ m.maxServer → m.server.length ≤ m.maxServer) ∧
  (1 ≤ m.maxClient → m.client.length ≤ m.maxClient)

theorem CFrame.sized {k : Key} {m : Mgr} {r : Mgr × List Out} (h : CFrame k m r) (hm : Sized m) :
    Sized r.1 := by
  obtain ⟨h1, h2, h3, h4⟩ := hm
  have hc := h.cfg
  simp only [Mgr.cfg, Prod.mk.injEq] at hc
  refine ⟨by rw [h.server]; exact h1, h.keys h2, ?_, ?_⟩
  · rw [h.server, hc.1]; exact h3
  · rw [hc.2.1]; intro hl; exact Nat.le_trans h.len (h4 hl)

theorem SFrame.sized {k : Key} {m : Mgr} {r : Mgr × List Out} (h : SFrame k m r) (hm : Sized m) :
    Sized r.1 := by
  obtain ⟨h1, h2, h3, h4⟩ := hm
  have hc := h.cfg
  simp only [Mgr.cfg, Prod.mk.injEq] at hc
  refine ⟨h.keys h1, by rw [h.client]; exact h2, ?_, ?_⟩
  · rw [hc.1]; intro hl; exact Nat.le_trans h.len (h3 hl)
  · rw [h.client, hc.2.1]; exact h4

/-- exactly what enforcing the client limit does -/
theorem enforceClient_spec (m : Mgr) (hn : m.client.keys.Nodup) :
    (m.client.length < m.maxClient ∧ m.enforceClient = (m, [])) ∨
    (m.maxClient ≤ m.client.length ∧ m.client = [] ∧ m.enforceClient = (m, [])) ∨
    (m.maxClient ≤ m.client.length ∧ ∃ k e, m.client.get k = some e ∧
      (∀ k' e', m.client.get k' = some e' → e.start ≤ e'.start) ∧
      m.enforceClient = ({ m with client := m.client.remove k },
        [.terminated e.tu k "resource limit exceeded"])) := by
  unfold Mgr.enforceClient
  split
  · rename_i hge
    right
    by_cases hl : 0 < m.client.length
    · right
      refine ⟨hge, ?_⟩
      obtain ⟨k, s, hks⟩ := oldest_ne_none CEntry.start m.client hl
      obtain ⟨e, he, hs⟩ := oldest_mem _ _ _ _ hks
      have hg := Tbl.get_of_mem _ _ _ hn he
      refine ⟨k, e, hg, ?_, ?_⟩
      · intro k' e' h'
        have := oldest_le _ _ _ _ hks _ (Tbl.mem_of_get _ _ _ h')
        simp only at this
        omega
      · simp [hks, hg]
    · left
      have : m.client = [] := List.eq_nil_of_length_eq_zero (by omega)
      refine ⟨hge, this, ?_⟩
      simp [this, oldest]
  · rename_i hlt
    left
    exact ⟨by omega, rfl⟩

theorem enforceServer_spec (m : Mgr) (hn : m.server.keys.Nodup) :
    (m.server.length < m.maxServer ∧ m.enforceServer = m) ∨
    (m.maxServer ≤ m.server.length ∧ m.server = [] ∧ m.enforceServer = m) ∨
    (m.maxServer ≤ m.server.length ∧ ∃ k e, m.server.get k = some e ∧
      (∀ k' e', m.server.get k' = some e' → e.start ≤ e'.start) ∧
      m.enforceServer = { m with server := m.server.remove k }) := by
  unfold Mgr.enforceServer
  split
  · rename_i hge
    right
    by_cases hl : 0 < m.server.length
    · right
      refine ⟨hge, ?_⟩
      obtain ⟨k, s, hks⟩ := oldest_ne_none SEntry.start m.server hl
      obtain ⟨e, he, hs⟩ := oldest_mem _ _ _ _ hks
      have hg := Tbl.get_of_mem _ _ _ hn he
      refine ⟨k, e, hg, ?_, ?_⟩
      · intro k' e' h'
        have := oldest_le _ _ _ _ hks _ (Tbl.mem_of_get _ _ _ h')
        simp only at this
        omega
      · simp [hks]
    · left
      have : m.server = [] := List.eq_nil_of_length_eq_zero (by omega)
      refine ⟨hge, this, ?_⟩
      simp [this, oldest]
  · rename_i hlt
    left
    exact ⟨by omega, rfl⟩

/-- after the limit check there is room for one more -/
theorem enforceClient_room (m : Mgr) (hm : Sized m) :
    Sized m.enforceClient.1 ∧
    (1 ≤ m.maxClient → m.enforceClient.1.client.length + 1 ≤ m.maxClient) ∧
    m.enforceClient.1.maxClient = m.maxClient := by
  rcases enforceClient_spec m hm.2.1 with ⟨h1, h2⟩ | ⟨h1, h2, h3⟩ | ⟨h1, k, e, hg, _, h3⟩
  · rw [h2]; exact ⟨hm, fun _ => h1, rfl⟩
  · rw [h3]; exact ⟨hm, fun h => by simp [h2]; exact h, rfl⟩
  · rw [h3]
    refine ⟨(cframe_remove k m).sized hm, ?_, rfl⟩
    intro hl
    have := Tbl.length_remove_lt m.client k ((Tbl.get_isSome_iff _ _).1 (by rw [hg]; rfl))
    have := hm.2.2.2 hl
    simp only; omega

theorem enforceServer_room (m : Mgr) (hm : Sized m) :
    Sized m.enforceServer ∧
    (1 ≤ m.maxServer → m.enforceServer.server.length + 1 ≤ m.maxServer) ∧
    m.enforceServer.maxServer = m.maxServer := by
  rcases enforceServer_spec m hm.1 with ⟨h1, h2⟩ | ⟨h1, h2, h3⟩ | ⟨h1, k, e, hg, _, h3⟩
  · rw [h2]; exact ⟨hm, fun _ => h1, rfl⟩
  · rw [h3]; exact ⟨hm, fun h => by simp [h2]; exact h, rfl⟩
  · rw [h3]
    refine ⟨(sframe_remove k m).sized hm, ?_, rfl⟩
    intro hl
    have := Tbl.length_remove_lt m.server k ((Tbl.get_isSome_iff _ _).1 (by rw [hg]; rfl))
    have := hm.2.2.1 hl
    simp only; omega

theorem step_sized (net : Nat → Bool) (m : Mgr) (op : Op) (hm : Sized m) :
    Sized (step net m op).1 := by
  have create : ∀ (m : Mgr), Sized m → ∀ k c now, Sized (m.createServer net k c now).1 := by
    intro m hm k c now
    obtain ⟨e, he⟩ := create_frame net k c now m
    refine he.sized ?_
    obtain ⟨h1, h2, h3⟩ := enforceServer_room m hm
    refine ⟨Tbl.nodup_insert _ _ _ h1.1, h1.2.1, ?_, h1.2.2.2⟩
    intro hl
    have := Tbl.length_insert_le m.enforceServer.server k e
    have := h2 (by simp only at hl; omega)
    simp only at hl ⊢
    omega
  cases op with
  | request method via fresh c now =>
    simp only [step, Mgr.receiveRequest]
    split
    · exact (sframe_feed net _ _ m).sized hm
    · split
      · exact (sframe_feed net _ _ m).sized hm
      · apply create
        split
        · exact (sframe_feed net _ _ m).sized hm
        · exact hm
  | start method via b targets tu now =>
    simp only [step, Mgr.startClient]
    split
    · rename_i c rem branch hb
      obtain ⟨h1, h2, h3⟩ := enforceClient_room m hm
      simp only [andThen]
      obtain ⟨e, he⟩ := launch_frame net ⟨branch, method, false⟩ b c rem tu now m.enforceClient.1
      refine he.sized ?_
      refine ⟨h1.1, Tbl.nodup_insert _ _ _ h1.2.1, h1.2.2.1, ?_⟩
      intro hl
      have := Tbl.length_insert_le m.enforceClient.1.client ⟨branch, method, false⟩ e
      have := h2 (by simp only at hl; omega)
      simp only at hl ⊢
      omega
    · exact hm
  | response via cseq r =>
    simp only [step, Mgr.receiveResponse]
    split
    · exact (cframe_response net _ r m).sized hm
    · exact hm
  | serverTimer k t => exact (sframe_timer net k t m).sized hm
  | clientTimer k t => exact (cframe_timer net k t m).sized hm
  | command =>
    simp only [step, Mgr.command]
    split
    · exact hm
    · rename_i c cs hp
      have hm' : Sized { m with pending := cs } := hm
      cases c with
      | serverTimer k t => exact (sframe_timer net k t _).sized hm'
      | clientTimer k t => exact (cframe_timer net k t _).sized hm'
      | clientError k => exact (cframe_error net k _).sized hm'
      | serverError k => exact (sframe_feed net k _ _).sized hm'
  | sendProvisional k r => exact (sframe_feed net k _ m).sized hm
  | sendFinal k r => exact (sframe_feed net k _ m).sized hm
  | ack k =>
    simp only [step, Mgr.ackReceived]
    split
    · exact (sframe_feed net k _ m).sized hm
    · exact hm

theorem step_cfg (net : Nat → Bool) (m : Mgr) (op : Op) : (step net m op).1.cfg = m.cfg :=
  step_client net ⟨[], .ack, true⟩ (fun m' _ => m'.cfg = m.cfg) False
    (fun _ _ _ _ _ h _ _ hp => h.trans hp)
    (fun _ _ _ _ hp => hp)
    (fun m' _ r hp => (cframe_response net _ r m').cfg.trans hp)
    (fun m' _ t hp => (cframe_timer net _ t m').cfg.trans hp)
    (fun _ _ t _ _ hp => (cframe_timer net _ t _).cfg.trans hp)
    (fun _ _ _ _ hp => (cframe_error net _ _).cfg.trans hp)
    (fun _ _ _ _ _ _ _ h => h.elim) m [] op
    (by cases op <;> simp [Op.starts]) rfl

theorem runOps_cfg (net : Nat → Bool) (m : Mgr) (ops : List Op) : (runOps net m ops).1.cfg = m.cfg := by
  have := runOps_inv net (fun m' _ => m'.cfg = m.cfg) (fun _ => True)
    (fun m' _ op _ h => (step_cfg net m' op).trans h) m [] ops (by simp) rfl
  exact this

theorem runOps_sized (net : Nat → Bool) (m : Mgr) (ops : List Op) (hm : Sized m) :
    Sized (runOps net m ops).1 := by
  have := runOps_inv net (fun m' _ => Sized m') (fun _ => True)
    (fun m' _ op _ h => step_sized net m' op h) m [] ops (by simp) hm
  exact this

theorem init_sized (ms mc t1 t2 t4 : Nat) : Sized (Mgr.init ms mc t1 t2 t4) := by
  simp [Sized, Mgr.init, Tbl.keys]

end Siphon.Manager
