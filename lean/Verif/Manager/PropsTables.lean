import Verif.Manager.LemmasServer
/-!
# C10, C12: table limits and response isolation
-/

namespace Siphon.Manager
open Siphon.Fsm
set_option linter.unusedSimpArgs false

/-! ## C10 -/

/-- C10: with limits of at least one, after any history the manager holds at most the configured
number of server and of client transactions (tables never hold a key twice, so the length is the
number of transactions). -/
theorem C10_tables_bounded (net : Nat → Bool) (ms mc t1 t2 t4 : Nat) (hs : 1 ≤ ms) (hc : 1 ≤ mc)
    (ops : List Op) :
    let m := (runOps net (Mgr.init ms mc t1 t2 t4) ops).1
    m.server.length ≤ ms ∧ m.client.length ≤ mc ∧ m.server.keys.Nodup ∧ m.client.keys.Nodup := by
  intro m
  have h := runOps_sized net _ ops (init_sized ms mc t1 t2 t4)
  have hcfg := runOps_cfg net (Mgr.init ms mc t1 t2 t4) ops
  simp only [Mgr.cfg, Mgr.init, Prod.mk.injEq] at hcfg
  obtain ⟨h1, h2, h3, h4⟩ := h
  refine ⟨?_, ?_, h1, h2⟩
  · have := h3; simp only [Mgr.init] at this; rw [hcfg.1] at this; exact this hs
  · have := h4; simp only [Mgr.init] at this; rw [hcfg.2.1] at this; exact this hc

/-- C10: starting a client transaction below the limit disturbs no other transaction. -/
theorem C10_client_room (net : Nat → Bool) (ms mc t1 t2 t4 : Nat) (ops : List Op)
    (method : Method) (via : Option Str) (b : Bytes) (targets : List Ctx) (tu now : Nat) (k : Key)
    (hk : (Op.start method via b targets tu now).starts k) :
    let m := (runOps net (Mgr.init ms mc t1 t2 t4) ops).1
    let r := step net m (.start method via b targets tu now)
    m.client.length < mc →
    (∀ k', k' ≠ k → r.1.client.get k' = m.client.get k') ∧ (∀ o ∈ r.2, o.clientKey = some k) := by
  intro m r hlt
  have hm := runOps_sized net _ ops (init_sized ms mc t1 t2 t4)
  have hcfg := runOps_cfg net (Mgr.init ms mc t1 t2 t4) ops
  simp only [Mgr.cfg, Mgr.init, Prod.mk.injEq] at hcfg
  have hmax : m.maxClient = mc := hcfg.2.1
  obtain ⟨ht, his, hme, hb⟩ := hk
  obtain ⟨c, rem, rfl⟩ := List.exists_cons_of_ne_nil ht
  have hkey : (⟨k.branch, method, false⟩ : Key) = k := by
    cases k; simp_all
  have hr : r = andThen m.enforceClient (Mgr.launch net k b c rem tu now) := by
    simp only [r, step, Mgr.startClient, hb, hkey]
  have hen : m.enforceClient = (m, []) := by
    rcases enforceClient_spec m hm.2.1 with ⟨_, h⟩ | ⟨_, _, h⟩ | ⟨h, _⟩
    · exact h
    · exact h
    · omega
  rw [hen] at hr
  obtain ⟨e, he⟩ := launch_frame net k b c rem tu now m
  rw [hr]
  simp only [andThen, List.nil_append]
  refine ⟨?_, fun o ho => (he.outs o ho).1⟩
  intro k' hk'
  rw [he.other k' hk']
  exact Tbl.get_insert_ne _ _ hk'

/-- C10: starting a client transaction at the limit evicts exactly one other transaction: one with
the least start time.  Its user is told, first; everybody else is undisturbed. -/
theorem C10_client_evicts_oldest (net : Nat → Bool) (ms mc t1 t2 t4 : Nat) (hc : 1 ≤ mc)
    (ops : List Op) (method : Method) (via : Option Str) (b : Bytes) (targets : List Ctx)
    (tu now : Nat) (k : Key) (hk : (Op.start method via b targets tu now).starts k) :
    let m := (runOps net (Mgr.init ms mc t1 t2 t4) ops).1
    let r := step net m (.start method via b targets tu now)
    m.client.length = mc →
    ∃ victim e, m.client.get victim = some e ∧
      (∀ k' e', m.client.get k' = some e' → e.start ≤ e'.start) ∧
      (∃ rest, r.2 = .terminated e.tu victim "resource limit exceeded" :: rest ∧
        ∀ o ∈ rest, o.clientKey = some k) ∧
      (victim ≠ k → r.1.client.get victim = none) ∧
      (∀ k', k' ≠ k → k' ≠ victim → r.1.client.get k' = m.client.get k') := by
  intro m r hfull
  have hm := runOps_sized net _ ops (init_sized ms mc t1 t2 t4)
  have hcfg := runOps_cfg net (Mgr.init ms mc t1 t2 t4) ops
  simp only [Mgr.cfg, Mgr.init, Prod.mk.injEq] at hcfg
  have hmax : m.maxClient = mc := hcfg.2.1
  obtain ⟨ht, his, hme, hb⟩ := hk
  obtain ⟨c, rem, rfl⟩ := List.exists_cons_of_ne_nil ht
  have hkey : (⟨k.branch, method, false⟩ : Key) = k := by
    cases k; simp_all
  have hr : r = andThen m.enforceClient (Mgr.launch net k b c rem tu now) := by
    simp only [r, step, Mgr.startClient, hb, hkey]
  rcases enforceClient_spec m hm.2.1 with ⟨h, _⟩ | ⟨_, h, _⟩ | ⟨_, v, e, hg, hmin, hen⟩
  · omega
  · rw [h] at hfull; simp at hfull; omega
  · refine ⟨v, e, hg, hmin, ?_⟩
    rw [hen] at hr
    obtain ⟨e2, he⟩ := launch_frame net k b c rem tu now { m with client := m.client.remove v }
    rw [hr]
    simp only [andThen]
    refine ⟨⟨_, rfl, fun o ho => (he.outs o ho).1⟩, ?_, ?_⟩
    · intro hv
      rw [he.other v hv]
      simp only
      rw [Tbl.get_insert_ne _ _ hv]
      exact Tbl.get_remove_self _ _
    · intro k' hk' hv
      rw [he.other k' hk']
      simp only
      rw [Tbl.get_insert_ne _ _ hk']
      exact Tbl.get_remove_ne _ hv

/-- the request `op` opens server transaction `k`: it is new, and not an ACK or CANCEL for an INVITE
transaction on the same branch -/
def Opens (m : Mgr) (op : Op) (k : Key) : Prop :=
  match op with
  | .request method via fresh _ _ =>
    k = requestKey method via fresh ∧ m.server.get k = none ∧
      ((method = .ack ∨ method.asStr = "CANCEL".toList) → m.server.get ⟨k.branch, .invite, true⟩ = none)
  | _ => False

theorem opens_step (net : Nat → Bool) (m : Mgr) (op : Op) (k : Key) (h : Opens m op k) :
    ∃ e, SFrame k { m.enforceServer with server := m.enforceServer.server.insert k e } (step net m op) := by
  cases op with
  | request method via fresh c now =>
    obtain ⟨rfl, hg, hinv⟩ := h
    have hno : ∀ (x : Prop), (x → (method = .ack ∨ method.asStr = "CANCEL".toList)) →
        ¬ (x ∧ m.hasInvite (requestKey method via fresh).toInvite = true) := by
      rintro x hx ⟨h1, h2⟩
      have := hinv (hx h1)
      simp [Mgr.hasInvite, Key.toInvite, this] at h2
    simp only [step, Mgr.receiveRequest]
    rw [if_neg (hno _ Or.inl), if_neg (by simp [Tbl.contains, hg]), if_neg (hno _ Or.inr)]
    obtain ⟨e, he⟩ := create_frame net (requestKey method via fresh) c now m
    exact ⟨e, by simpa [andThen] using he⟩
  | _ => exact h.elim

/-- C10: a new server transaction below the limit disturbs no other one; at the limit it evicts
exactly one, with the least start time. -/
theorem C10_server_evicts_oldest (net : Nat → Bool) (ms mc t1 t2 t4 : Nat) (hs : 1 ≤ ms)
    (ops : List Op) (op : Op) (k : Key) :
    let m := (runOps net (Mgr.init ms mc t1 t2 t4) ops).1
    let r := step net m op
    Opens m op k →
    (m.server.length < ms → ∀ k', k' ≠ k → r.1.server.get k' = m.server.get k') ∧
    (m.server.length = ms → ∃ victim e, m.server.get victim = some e ∧
      (∀ k' e', m.server.get k' = some e' → e.start ≤ e'.start) ∧
      r.1.server.get victim = none ∧
      ∀ k', k' ≠ k → k' ≠ victim → r.1.server.get k' = m.server.get k') := by
  intro m r hop
  have hm := runOps_sized net _ ops (init_sized ms mc t1 t2 t4)
  have hcfg := runOps_cfg net (Mgr.init ms mc t1 t2 t4) ops
  simp only [Mgr.cfg, Mgr.init, Prod.mk.injEq] at hcfg
  have hmax : m.maxServer = ms := hcfg.1
  obtain ⟨e0, he⟩ := opens_step net m op k hop
  have hnk : m.server.get k = none := by
    cases op <;> simp only [Opens] at hop
    exact hop.2.1
  constructor
  · intro hlt k' hk'
    rcases enforceServer_spec m hm.1 with ⟨_, h⟩ | ⟨_, _, h⟩ | ⟨h, _⟩
    · rw [h] at he; rw [he.other k' hk']; exact Tbl.get_insert_ne _ _ hk'
    · rw [h] at he; rw [he.other k' hk']; exact Tbl.get_insert_ne _ _ hk'
    · omega
  · intro hfull
    rcases enforceServer_spec m hm.1 with ⟨h, _⟩ | ⟨_, h, _⟩ | ⟨_, v, e, hg, hmin, hen⟩
    · omega
    · rw [h] at hfull; simp at hfull; omega
    · refine ⟨v, e, hg, hmin, ?_, ?_⟩
      · have hv : v ≠ k := by rintro rfl; rw [hg] at hnk; simp at hnk
        rw [hen] at he
        rw [he.other v hv]
        simp only
        rw [Tbl.get_insert_ne _ _ hv]
        exact Tbl.get_remove_self _ _
      · intro k' hk' hv
        rw [hen] at he
        rw [he.other k' hk']
        simp only
        rw [Tbl.get_insert_ne _ _ hk']
        exact Tbl.get_remove_ne _ hv

/-! ### A concrete history: limit 2, three transactions -/

def viaOf (b : String) : Option Str := some ("SIP/2.0/UDP h;branch=".toList ++ b.toList)

def netOk : Nat → Bool := fun _ => true

example :
    let op (b : String) (now : Nat) : Op := .start .options (viaOf b) [1] [⟨.udp, 1⟩] 7 now
    let m := (runOps netOk (Mgr.init 2 2 500 4000 5000) [op "z9a" 5, op "z9b" 3]).1
    m.client.length = 2 ∧
    (step netOk m (op "z9c" 9)).1.client.keys.map (·.branch) = ["z9c".toList, "z9a".toList] ∧
    (step netOk m (op "z9c" 9)).2.head? =
      some (.terminated 7 ⟨"z9b".toList, .options, false⟩ "resource limit exceeded") := by
  decide +kernel

/-- Finding: a limit of zero is not a limit.  The eviction step finds nothing to evict and the
insertion goes ahead. -/
theorem C10_zero_limit_not_enforced :
    ∃ ops, 0 < (runOps netOk (Mgr.init 0 0 500 4000 5000) ops).1.client.length :=
  ⟨[.start .options (viaOf "z9a") [1] [⟨.udp, 1⟩] 7 0], by decide +kernel⟩

/-! ## C12 -/

/-- C12: a response leaves every server transaction and every client transaction other than the one
keyed by its top Via branch and CSeq method unchanged, and all effects belong to that one. -/
theorem C12_isolated (net : Nat → Bool) (m : Mgr) (via cseq : Option Str) (r : Resp) (branch : Str)
    (method : Method) (hv : via.bind branchFromVia = some branch)
    (hc : cseq.bind cseqMethod = some method) :
    let k : Key := ⟨branch, method, false⟩
    let s := step net m (.response via cseq r)
    s.1.server = m.server ∧
    (∀ k', k' ≠ k → s.1.client.get k' = m.client.get k') ∧
    (∀ o ∈ s.2, o.clientKey = some k) ∧
    (∀ k', k' ≠ k → pendC k' s.1.pending = pendC k' m.pending) := by
  intro k s
  have hs : s = m.dispatchResponse net k r := by
    simp [s, step, Mgr.receiveResponse, hv, hc, k]
  rw [hs]
  have h := cframe_response net k r m
  exact ⟨h.server, h.other, fun o ho => (h.outs o ho).1, h.pend⟩

/-- C12: a response without a matching client transaction, or without a branch or method to match
with, changes nothing and is handed to nobody. -/
theorem C12_unmatched (net : Nat → Bool) (m : Mgr) (via cseq : Option Str) (r : Resp)
    (h : ∀ branch method, via.bind branchFromVia = some branch → cseq.bind cseqMethod = some method →
      m.client.get ⟨branch, method, false⟩ = none) :
    step net m (.response via cseq r) = (m, []) := by
  simp only [step, Mgr.receiveResponse]
  split
  · rename_i branch method hb hm
    simp [Mgr.dispatchResponse, Mgr.stepClient, h branch method hb hm]
  · rfl

/-- a token that may stand in a Via parameter or CSeq: no separators, no blanks -/
def PlainToken (s : Str) : Prop := ∀ c ∈ s, c ≠ ';' ∧ c ≠ '=' ∧ isWs c = false

theorem find_branch_skip (ps : List Str)
    (h : ∀ p ∈ ps, ∀ n v, splitOnce '=' p = some (n, v) → eqIgnoreCase (trim n) "branch".toList = false)
    (rest : List Str) :
    (ps ++ rest).findSome? (fun part =>
      match splitOnce '=' part with
      | none => none
      | some (name, value) =>
        if eqIgnoreCase (trim name) "branch".toList then some (trim value) else none) =
    rest.findSome? (fun part =>
      match splitOnce '=' part with
      | none => none
      | some (name, value) =>
        if eqIgnoreCase (trim name) "branch".toList then some (trim value) else none) := by
  induction ps with
  | nil => rfl
  | cons p ps ih =>
    simp only [List.cons_append, List.findSome?_cons]
    have hp := h p (by simp)
    cases hs : splitOnce '=' p with
    | none => simp only; exact ih (fun q hq => h q (by simp [hq]))
    | some nv =>
      obtain ⟨n, v⟩ := nv
      simp only [hp n v hs, Bool.false_eq_true, if_false]
      exact ih (fun q hq => h q (by simp [hq]))

/-- join Via parameters with semicolons -/
def viaText (sentBy : Str) (params : List Str) : Str :=
  sentBy ++ params.flatMap (fun p => ';' :: p)

theorem splitChar_viaText (sentBy : Str) (params : List Str) (h0 : ';' ∉ sentBy)
    (h : ∀ p ∈ params, ';' ∉ p) : splitChar ';' (viaText sentBy params) = sentBy :: params := by
  induction params generalizing sentBy with
  | nil => simpa [viaText] using splitChar_of_not_mem ';' sentBy h0
  | cons p ps ih =>
    have : viaText sentBy (p :: ps) = sentBy ++ ';' :: viaText p ps := by
      simp [viaText]
    rw [this, splitChar_append_sep ';' sentBy _ h0, ih p (h p (by simp)) (fun q hq => h q (by simp [hq]))]

/-- C12: the branch used for matching is the value of the `branch` parameter of the top Via,
whatever the other parameters, their order, and the case of the parameter name. -/
theorem C12_branch_is_via_param (sentBy : Str) (before after : List Str) (name branch : Str)
    (h0 : ';' ∉ sentBy) (hb : ∀ p ∈ before ++ after, ';' ∉ p)
    (hbefore : ∀ p ∈ before, ∀ n v, splitOnce '=' p = some (n, v) →
      eqIgnoreCase (trim n) "branch".toList = false)
    (hname : eqIgnoreCase name "branch".toList = true) (hnt : PlainToken name)
    (hbr : PlainToken branch) :
    branchFromVia (viaText sentBy (before ++ (name ++ '=' :: branch) :: after)) = some branch := by
  have hsemi : ∀ p ∈ before ++ (name ++ '=' :: branch) :: after, ';' ∉ p := by
    intro p hp
    simp only [List.mem_append, List.mem_cons] at hp
    rcases hp with hp | rfl | hp
    · exact hb p (by simp [hp])
    · intro hc
      simp only [List.mem_append, List.mem_cons] at hc
      rcases hc with hc | hc | hc
      · exact (hnt _ hc).1 rfl
      · exact absurd hc (by decide)
      · exact (hbr _ hc).1 rfl
    · exact hb p (by simp [hp])
  unfold branchFromVia
  rw [splitChar_viaText _ _ h0 hsemi]
  simp only [List.drop_one, List.tail_cons]
  refine Eq.trans (find_branch_skip before hbefore _) ?_
  have hne : '=' ∉ name := fun hc => (hnt _ hc).2.1 rfl
  have htr : ∀ s, PlainToken s → trim s = s := fun s hs =>
    trim_of_trimmed _ (trimmed_of_all s (fun c hc => (hs c hc).2.2))
  simp only [List.findSome?_cons, splitOnce_append '=' name branch hne, htr name hnt, htr branch hbr,
    hname, if_true]

example : branchFromVia "SIP/2.0/UDP h:5060;rport;Branch=z9hG4bKx ;received=1.2.3.4".toList
    = some "z9hG4bKx".toList := by decide +kernel

example :
    let m := (runOps netOk (Mgr.init 9 9 500 4000 5000)
      [.start .options (viaOf "a") [1] [⟨.udp, 1⟩] 7 0, .start .options (viaOf "b") [2] [⟨.udp, 1⟩] 8 1]).1
    (step netOk m (.response (viaOf "b") (some "4 OPTIONS".toList) ⟨200, false, [9]⟩)).2 =
      [.final 8 ⟨"b".toList, .options, false⟩ ⟨200, false, [9]⟩] := by
  decide +kernel

end Siphon.Manager
