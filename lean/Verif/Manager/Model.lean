import Verif.Fsm.Model
import Verif.Core.Method
import Verif.Base.Table
/-!
# The transaction manager

Model of `crates/sip-transaction/src/manager.rs` and of the key extraction in
`crates/sip-transaction/src/lib.rs`.

Simplifications that hold for the whole file:
* Every public call and every command taken from the command channel runs to completion
  before the next one (in the code the entry lock is released between the state machine step
  and the application of its actions).  The race this hides in limit enforcement is treated
  separately in `Verif/Manager/Race.lean`.
* The success of the `n`-th network send is `net n` for an arbitrary oracle `net`.
* A timer may fire at any moment (`Op.serverTimer`, `Op.clientTimer`), whether armed or not: a
  superset of the schedules the tokio timers can produce.  A timer scheduled with zero duration
  is appended to the command queue (1445-1460, 1483-1498).
* Metrics and logging are dropped, and so is the guard `MAX_TIMER_BUCKETS` (10 000) on the number
  of armed timers of one entry, which cannot be reached with 14 timer names.
* `Instant` is a natural number supplied with the operation.
-/

namespace Siphon.Manager
open Siphon.Fsm

/-- fsm.rs 971-981 `TransportKind`. -/
inductive TransportKind | udp | tcp | tls | ws | wss | sctp | tlsSctp
  deriving DecidableEq, Repr

/-- manager.rs 428-438 `transport_kind_to_transport`. -/
def TransportKind.toTransport : TransportKind → Transport
  | .udp => .udp
  | .tcp => .tcp
  | .tls => .tls
  | .ws => .tcp
  | .wss => .tls
  | .sctp => .tcp
  | .tlsSctp => .tls

/-- manager.rs 198-217 `TransportContext` (transport and peer; the other fields are opaque
to the manager). -/
structure Ctx where
  transport : TransportKind
  peer : Nat
  deriving DecidableEq, Repr

/-- lib.rs 224-232 `TransactionKey`. -/
structure Key where
  branch : Str
  method : Method
  isServer : Bool
  deriving DecidableEq, Repr

/-- lib.rs 96-107 `branch_from_via`. -/
def branchFromVia (via : Str) : Option Str :=
  ((splitChar ';' via).drop 1).findSome? (fun part =>
    match splitOnce '=' part with
    | none => none
    | some (name, value) =>
      if eqIgnoreCase (trim name) "branch".toList then some (trim value) else none)

/-- manager.rs 734-739 `extract_cseq_method`. -/
def cseqMethod (cseq : Str) : Option Method :=
  match (splitWhitespace cseq)[1]? with
  | none => none
  | some tok => match Method.fromToken tok with
    | .ok m => some m
    | .error _ => none

/-- manager.rs 336-339 `ServerKind`. -/
inductive SKind | invite (f : SI) | nonInvite (f : SN)
  deriving DecidableEq, Repr

/-- manager.rs 355-358 `ClientKind`. -/
inductive CKind | invite (f : CI) | nonInvite (f : CN)
  deriving DecidableEq, Repr

/-- manager.rs 328-334 `ServerEntry` (`timers`: the armed ones). -/
structure SEntry where
  kind : SKind
  ctx : Ctx
  timers : List Timer
  start : Nat
  deriving DecidableEq, Repr

/-- manager.rs 341-353 `ClientEntry`; `tu` identifies the transaction user. -/
structure CEntry where
  kind : CKind
  ctx : Ctx
  tu : Nat
  timers : List Timer
  start : Nat
  remaining : List Ctx
  deriving DecidableEq, Repr

/-- manager.rs 310-325 `ManagerCommand`. -/
inductive Cmd
  | serverTimer (k : Key) (t : Timer)
  | clientTimer (k : Key) (t : Timer)
  | clientError (k : Key)
  | serverError (k : Key)
  deriving DecidableEq, Repr

/-- Observable effects: network sends and calls of the transaction user. -/
inductive Out
  /-- a send for a client transaction, with its outcome -/
  | attempt (k : Key) (ctx : Ctx) (b : Bytes) (ok : Bool)
  /-- a send for a server transaction, with its outcome -/
  | respond (k : Key) (ctx : Ctx) (b : Bytes) (ok : Bool)
  | provisional (tu : Nat) (k : Key) (r : Resp)
  | final (tu : Nat) (k : Key) (r : Resp)
  | ack (tu : Nat) (k : Key) (r : Resp) (ctx : Ctx) (is2xx : Bool)
  | prack (tu : Nat) (k : Key) (r : Resp) (ctx : Ctx)
  | transportError (tu : Nat) (k : Key)
  | terminated (tu : Nat) (k : Key) (reason : String)
  deriving DecidableEq, Repr

/-- manager.rs 416-425 `ManagerInner`, the command queue and the number of sends so far. -/
structure Mgr where
  server : Tbl Key SEntry
  client : Tbl Key CEntry
  maxServer : Nat
  maxClient : Nat
  t1 : Nat
  t2 : Nat
  t4 : Nat
  pending : List Cmd
  sends : Nat
  deriving DecidableEq, Repr

/-- manager.rs 618-641 `with_timers_pool_and_limits`. -/
def Mgr.init (maxServer maxClient t1 t2 t4 : Nat) : Mgr :=
  ⟨[], [], maxServer, maxClient, t1, t2, t4, [], 0⟩

/-- sequencing of effects -/
def andThen (r : Mgr × List Out) (f : Mgr → Mgr × List Out) : Mgr × List Out :=
  let r' := f r.1
  (r'.1, r.2 ++ r'.2)

/-! ## Sending -/

/-- manager.rs 454-502, the loop of `dispatch_with_failover`: try `ctx`, on failure take the next
target, until one send succeeds or none is left.  Result: success, the target in use, the
targets left, and the attempts made. -/
def failover (net : Nat → Bool) : Nat → Ctx → List Ctx → Bool × Ctx × List Ctx × List (Ctx × Bool)
  | n, c, [] => if net n then (true, c, [], [(c, true)]) else (false, c, [], [(c, false)])
  | n, c, d :: ds =>
    if net n then (true, c, d :: ds, [(c, true)])
    else
      let r := failover net (n + 1) d ds
      (r.1, r.2.1, r.2.2.1, (c, false) :: r.2.2.2)

/-- manager.rs 454-502 `dispatch_with_failover`. -/
def Mgr.dispatchWithFailover (net : Nat → Bool) (k : Key) (b : Bytes) (m : Mgr) : Mgr × List Out :=
  match m.client.get k with
  | none => (m, [])
  | some e =>
    let r := failover net m.sends e.ctx e.remaining
    ({ m with
        client := m.client.update k (fun e => { e with ctx := r.2.1, remaining := r.2.2.1 })
        sends := m.sends + r.2.2.2.length
        pending := if r.1 then m.pending else m.pending ++ [.clientError k] },
     r.2.2.2.map (fun a => .attempt k a.1 b a.2))

/-! ## Timers -/

/-- manager.rs 1439-1480 `schedule_client_timer`. -/
def Mgr.scheduleClient (k : Key) (t : Timer) (d : Nat) (m : Mgr) : Mgr :=
  match m.client.get k with
  | none => m
  | some _ =>
    if d = 0 then
      { m with
        client := m.client.update k (fun e => { e with timers := e.timers.filter (· ≠ t) })
        pending := m.pending ++ [.clientTimer k t] }
    else
      { m with
        client := m.client.update k (fun e => { e with timers := t :: e.timers.filter (· ≠ t) }) }

/-- manager.rs 1482-1518 `schedule_timer`. -/
def Mgr.scheduleServer (k : Key) (t : Timer) (d : Nat) (m : Mgr) : Mgr :=
  match m.server.get k with
  | none => m
  | some _ =>
    if d = 0 then
      { m with
        server := m.server.update k (fun e => { e with timers := e.timers.filter (· ≠ t) })
        pending := m.pending ++ [.serverTimer k t] }
    else
      { m with
        server := m.server.update k (fun e => { e with timers := t :: e.timers.filter (· ≠ t) }) }

/-- manager.rs 396-400 and 1337-1341: cancel a client timer. -/
def Mgr.cancelClient (k : Key) (t : Timer) (m : Mgr) : Mgr :=
  { m with client := m.client.update k (fun e => { e with timers := e.timers.filter (· ≠ t) }) }

/-- manager.rs 382-386 and 1193-1197: cancel a server timer. -/
def Mgr.cancelServer (k : Key) (t : Timer) (m : Mgr) : Mgr :=
  { m with server := m.server.update k (fun e => { e with timers := e.timers.filter (· ≠ t) }) }

/-! ## Applying actions -/

/-- manager.rs 1173-1219: one server action. -/
def Mgr.applyServer1 (net : Nat → Bool) (k : Key) (a : SAction) (m : Mgr) : Mgr × List Out :=
  match a with
  | .transmit b =>
    match m.server.get k with
    | none => (m, [])
    | some e =>
      ({ m with
          sends := m.sends + 1
          pending := if net m.sends then m.pending else m.pending ++ [.serverError k] },
       [.respond k e.ctx b (net m.sends)])
  | .schedule t d => (m.scheduleServer k t d, [])
  | .cancel t => (m.cancelServer k t, [])
  | .terminate _ => ({ m with server := m.server.remove k }, [])

/-- manager.rs 1152-1221 `apply_server_actions`. -/
def Mgr.applyServer (net : Nat → Bool) (k : Key) : List SAction → Mgr → Mgr × List Out
  | [], m => (m, [])
  | a :: as, m => andThen (m.applyServer1 net k a) (Mgr.applyServer net k as)

/-- manager.rs 1312-1322 and 1384-1394: hand a response to the user. -/
def Mgr.deliver (k : Key) (r : Resp) (m : Mgr) : List Out :=
  match m.client.get k with
  | none => []
  | some e => if r.code < 200 then [.provisional e.tu k r] else [.final e.tu k r]

/-- manager.rs 1308-1365: one INVITE client action. -/
def Mgr.applyCI1 (net : Nat → Bool) (k : Key) (a : CIAction) (m : Mgr) : Mgr × List Out :=
  match a with
  | .transmit b => m.dispatchWithFailover net k b
  | .deliver r => (m, m.deliver k r)
  | .expectPrack r =>
    match m.client.get k with
    | none => (m, [])
    | some e => (m, [.prack e.tu k r e.ctx])
  | .generateAck r is2xx =>
    match m.client.get k with
    | none => (m, [])
    | some e => (m, [.ack e.tu k r e.ctx is2xx])
  | .schedule t d => (m.scheduleClient k t d, [])
  | .cancel t => (m.cancelClient k t, [])
  | .terminate why =>
    match m.client.get k with
    | none => ({ m with client := m.client.remove k }, [])
    | some e => ({ m with client := m.client.remove k }, [.terminated e.tu k why])

/-- manager.rs 1284-1367 `apply_client_invite_actions`. -/
def Mgr.applyCI (net : Nat → Bool) (k : Key) : List CIAction → Mgr → Mgr × List Out
  | [], m => (m, [])
  | a :: as, m => andThen (m.applyCI1 net k a) (Mgr.applyCI net k as)

/-- manager.rs 1374-1435: one non-INVITE client action. -/
def Mgr.applyCN1 (net : Nat → Bool) (k : Key) (a : CNAction) (m : Mgr) : Mgr × List Out :=
  match a with
  | .transmit b => m.dispatchWithFailover net k b
  | .deliver r => (m, m.deliver k r)
  | .schedule t d => (m.scheduleClient k t d, [])
  | .cancel t => (m.cancelClient k t, [])
  | .terminate why =>
    match m.client.get k with
    | none => (m, [])
    | some e => ({ m with client := m.client.remove k }, [.terminated e.tu k why])

/-- manager.rs 1369-1437 `apply_client_non_invite_actions`. -/
def Mgr.applyCN (net : Nat → Bool) (k : Key) : List CNAction → Mgr → Mgr × List Out
  | [], m => (m, [])
  | a :: as, m => andThen (m.applyCN1 net k a) (Mgr.applyCN net k as)

/-- the state machine of an entry has reached Terminated -/
def CKind.isTerminated : CKind → Bool
  | .invite f => f.state = .terminated
  | .nonInvite f => f.state = .terminated

/-- manager.rs 1249-1282 `reap_terminated_client`. -/
def Mgr.reap (k : Key) (m : Mgr) : Mgr :=
  match m.client.get k with
  | none => m
  | some e => if e.kind.isTerminated then { m with client := m.client.remove k } else m

/-- manager.rs 360-363 `ClientRuntimeActions`. -/
inductive CActs | invite (as : List CIAction) | nonInvite (as : List CNAction)

/-- manager.rs 1223-1233 `apply_client_actions`. -/
def Mgr.applyClient (net : Nat → Bool) (k : Key) (as : CActs) (m : Mgr) : Mgr × List Out :=
  let r := match as with
    | .invite as => m.applyCI net k as
    | .nonInvite as => m.applyCN net k as
  (r.1.reap k, r.2)

/-! ## Feeding events to an entry -/

/-- Events a client entry can be given, whichever machine it holds. -/
inductive CEv | provisional (r : Resp) | final (r : Resp) | timer (t : Timer) | transportError

/-- `match &mut entry.kind { Invite(fsm) => fsm.on_event(..), NonInvite(fsm) => .. }` as in
manager.rs 1069-1077, 1116-1124, 1606-1624. -/
def CKind.feed : CKind → CEv → CKind × CActs
  | .invite f, ev =>
    let r := CI.step f (match ev with
      | .provisional r => .provisional r
      | .final r => .final r
      | .timer t => .timer t
      | .transportError => .transportError)
    (.invite r.1, .invite r.2)
  | .nonInvite f, ev =>
    let r := CN.step f (match ev with
      | .provisional r => .provisional r
      | .final r => .final r
      | .timer t => .timer t
      | .transportError => .transportError)
    (.nonInvite r.1, .nonInvite r.2)

/-- Events a server entry can be given. -/
inductive SEv
  | received | retransmit | cancel | provisional (r : Resp) | final (r : Resp) | ack
  | timer (t : Timer) | transportError

/-- `match &mut entry.kind` for server entries, manager.rs 786-787, 800-803, 820-821, 853-858,
1049-1054, 1139-1144, 1522-1528, 1559-1564, 1592-1597 (a CANCEL is only ever fed to an INVITE
entry). -/
def SKind.feed : SKind → SEv → SKind × List SAction
  | .invite f, ev =>
    let r := SI.step f (match ev with
      | .received => .receiveInvite
      | .retransmit => .retransmit
      | .cancel => .cancel
      | .provisional r => .sendProvisional r
      | .final r => .sendFinal r
      | .ack => .ack
      | .timer t => .timer t
      | .transportError => .transportError)
    (.invite r.1, r.2)
  | .nonInvite f, ev =>
    match ev with
    | .cancel => (.nonInvite f, [])
    | .received => let r := SN.step f .receiveRequest; (.nonInvite r.1, r.2)
    | .retransmit => let r := SN.step f .retransmit; (.nonInvite r.1, r.2)
    | .provisional q => let r := SN.step f (.sendProvisional q); (.nonInvite r.1, r.2)
    | .final q => let r := SN.step f (.sendFinal q); (.nonInvite r.1, r.2)
    | .ack => let r := SN.step f .ack; (.nonInvite r.1, r.2)
    | .timer t => let r := SN.step f (.timer t); (.nonInvite r.1, r.2)
    | .transportError => let r := SN.step f .transportError; (.nonInvite r.1, r.2)

/-- step the machine of client entry `k` under the entry lock -/
def Mgr.stepClient (k : Key) (ev : CEv) (m : Mgr) : Option (Mgr × CEntry × CActs) :=
  match m.client.get k with
  | none => none
  | some e =>
    let r := e.kind.feed ev
    some ({ m with client := m.client.update k (fun e => { e with kind := r.1 }) }, e, r.2)

/-- step the machine of server entry `k` under the entry lock -/
def Mgr.stepServer (k : Key) (ev : SEv) (m : Mgr) : Option (Mgr × List SAction) :=
  match m.server.get k with
  | none => none
  | some e =>
    let r := e.kind.feed ev
    some ({ m with server := m.server.update k (fun e => { e with kind := r.1 }) }, r.2)

/-- step server entry `k` and apply the actions; nothing if there is no entry -/
def Mgr.feedServer (net : Nat → Bool) (k : Key) (ev : SEv) (m : Mgr) : Mgr × List Out :=
  match m.stepServer k ev with
  | none => (m, [])
  | some (m', as) => m'.applyServer net k as

/-! ## Limits -/

/-- manager.rs 711-726 `find_oldest_*`: a key with the least start time (the first such in
iteration order). -/
def oldest {V : Type} (start : V → Nat) : Tbl Key V → Option (Key × Nat)
  | [] => none
  | (k, v) :: t => match oldest start t with
    | none => some (k, start v)
    | some (k', s') => if start v ≤ s' then some (k, start v) else some (k', s')

/-- manager.rs 660-678 `enforce_server_transaction_limit`. -/
def Mgr.enforceServer (m : Mgr) : Mgr :=
  if m.server.length ≥ m.maxServer then
    match oldest SEntry.start m.server with
    | none => m
    | some (k, _) => { m with server := m.server.remove k }
  else m

/-- manager.rs 683-708 `enforce_client_transaction_limit`. -/
def Mgr.enforceClient (m : Mgr) : Mgr × List Out :=
  if m.client.length ≥ m.maxClient then
    match oldest CEntry.start m.client with
    | none => (m, [])
    | some (k, _) => match m.client.get k with
      | none => (m, [])
      | some e => ({ m with client := m.client.remove k },
                   [.terminated e.tu k "resource limit exceeded"])
  else (m, [])

/-! ## Operations -/

/-- transport-aware timers of a new transaction, manager.rs 831-833, 930-931 -/
def Mgr.timersFor (m : Mgr) (c : Ctx) : Timers := ⟨c.transport.toTransport, m.t1, m.t2, m.t4⟩

/-- manager.rs 769-774: the key of an inbound request; `fresh` is the random branch used when the
request has none. -/
def requestKey (method : Method) (via : Option Str) (fresh : Str) : Key :=
  ⟨(via.bind branchFromVia).getD fresh, method, true⟩

/-- manager.rs 828-860: create the server transaction `k` and feed it its request. -/
def Mgr.createServer (net : Nat → Bool) (k : Key) (c : Ctx) (now : Nat) (m : Mgr) :
    Mgr × List Out :=
  let m1 := m.enforceServer
  let tm := m1.timersFor c
  let kind : SKind := match k.method with
    | .invite => .invite (SI.new tm)
    | _ => .nonInvite (SN.new tm)
  let r := kind.feed .received
  let m2 := { m1 with server := m1.server.insert k ⟨r.1, c, [], now⟩ }
  m2.applyServer net k r.2

/-- the INVITE transaction key on the same branch, manager.rs 779-783 and 814-818 -/
def Key.toInvite (k : Key) : Key := ⟨k.branch, .invite, true⟩

/-- the entry under `k` exists and holds an INVITE machine (manager.rs 784-785, 819-820) -/
def Mgr.hasInvite (m : Mgr) (k : Key) : Bool :=
  match m.server.get k with
  | some ⟨.invite _, _, _, _⟩ => true
  | _ => false

/-- manager.rs 764-866 `receive_request`: new state, effects, and the key of the handle returned. -/
def Mgr.receiveRequest (net : Nat → Bool) (method : Method) (via : Option Str) (fresh : Str)
    (c : Ctx) (now : Nat) (m : Mgr) : Mgr × List Out × Key :=
  let k := requestKey method via fresh
  if method = .ack ∧ m.hasInvite k.toInvite then
    let r := m.feedServer net k.toInvite .ack
    (r.1, r.2, k.toInvite)
  else if m.server.contains k then
    let r := m.feedServer net k .retransmit
    (r.1, r.2, k)
  else
    let r :=
      andThen
        (if method.asStr = "CANCEL".toList ∧ m.hasInvite k.toInvite then
          m.feedServer net k.toInvite .cancel
         else (m, []))
        (Mgr.createServer net k c now)
    (r.1, r.2, k)

/-- manager.rs 933-971: build the state machine, feed it the request, store the entry and apply the
actions. -/
def Mgr.launch (net : Nat → Bool) (k : Key) (b : Bytes) (c : Ctx) (remaining : List Ctx) (tu : Nat)
    (now : Nat) (m : Mgr) : Mgr × List Out :=
  let tm := m.timersFor c
  if k.method = .invite then
    let r := CI.step (CI.new tm) (.sendInvite ⟨b⟩)
    Mgr.applyClient net k (.invite r.2)
      { m with client := m.client.insert k ⟨.invite r.1, c, tu, [], now, remaining⟩ }
  else
    let r := CN.step (CN.new tm) (.sendRequest ⟨b⟩)
    Mgr.applyClient net k (.nonInvite r.2)
      { m with client := m.client.insert k ⟨.nonInvite r.1, c, tu, [], now, remaining⟩ }

/-- manager.rs 889-972 `start_client_transaction_with_targets`, `start_client_inner`: `none` is the
`Err` for an empty target list or a missing branch. -/
def Mgr.startClient (net : Nat → Bool) (method : Method) (via : Option Str) (b : Bytes)
    (targets : List Ctx) (tu : Nat) (now : Nat) (m : Mgr) : Mgr × List Out × Option Key :=
  match targets, via.bind branchFromVia with
  | c :: remaining, some branch =>
    let k : Key := ⟨branch, method, false⟩
    let r := andThen m.enforceClient (Mgr.launch net k b c remaining tu now)
    (r.1, r.2, some k)
  | _, _ => (m, [], none)

/-- manager.rs 1603-1627 `dispatch_response`. -/
def Mgr.dispatchResponse (net : Nat → Bool) (k : Key) (r : Resp) (m : Mgr) : Mgr × List Out :=
  match m.stepClient k (if r.code < 200 then .provisional r else .final r) with
  | none => (m, [])
  | some (m', _, as) => m'.applyClient net k as

/-- manager.rs 975-1039 `receive_response`. -/
def Mgr.receiveResponse (net : Nat → Bool) (via cseq : Option Str) (r : Resp) (m : Mgr) :
    Mgr × List Out :=
  match via.bind branchFromVia, cseq.bind cseqMethod with
  | some branch, some method => m.dispatchResponse net ⟨branch, method, false⟩ r
  | _, _ => (m, [])

/-- manager.rs 1041-1059 `handle_server_timer`. -/
def Mgr.handleServerTimer (net : Nat → Bool) (k : Key) (t : Timer) (m : Mgr) : Mgr × List Out :=
  (m.cancelServer k t).feedServer net k (.timer t)

/-- manager.rs 1061-1081 `handle_client_timer`. -/
def Mgr.handleClientTimer (net : Nat → Bool) (k : Key) (t : Timer) (m : Mgr) : Mgr × List Out :=
  match (m.cancelClient k t).stepClient k (.timer t) with
  | none => (m, [])
  | some (m', _, as) => m'.applyClient net k as

/-- manager.rs 1083-1087 and 1112-1132: transport error of a client transaction. -/
def Mgr.processClientError (net : Nat → Bool) (k : Key) (m : Mgr) : Mgr × List Out :=
  match m.stepClient k .transportError with
  | none => (m, [])
  | some (m', e, as) =>
    let r := m'.applyClient net k as
    (r.1, .transportError e.tu k :: r.2)

/-- manager.rs 1089-1110 and 1134-1150: transport error of a server transaction. -/
def Mgr.processServerError (net : Nat → Bool) (k : Key) (m : Mgr) : Mgr × List Out :=
  m.feedServer net k .transportError

/-- manager.rs 741-761 `spawn_command_loop`: take the next command, if any. -/
def Mgr.command (net : Nat → Bool) (m : Mgr) : Mgr × List Out :=
  match m.pending with
  | [] => (m, [])
  | c :: cs =>
    let m := { m with pending := cs }
    match c with
    | .serverTimer k t => m.handleServerTimer net k t
    | .clientTimer k t => m.handleClientTimer net k t
    | .clientError k => m.processClientError net k
    | .serverError k => m.processServerError net k

/-- manager.rs 1588-1601 `ack_received`. -/
def Mgr.ackReceived (net : Nat → Bool) (k : Key) (m : Mgr) : Mgr × List Out × Bool :=
  if m.server.contains k then
    let r := m.feedServer net k .ack
    (r.1, r.2, true)
  else (m, [], false)

/-- Everything that can happen to a manager. -/
inductive Op
  | request (method : Method) (via : Option Str) (fresh : Str) (ctx : Ctx) (now : Nat)
  | start (method : Method) (via : Option Str) (b : Bytes) (targets : List Ctx) (tu : Nat) (now : Nat)
  | response (via cseq : Option Str) (r : Resp)
  | serverTimer (k : Key) (t : Timer)
  | clientTimer (k : Key) (t : Timer)
  | command
  | sendProvisional (k : Key) (r : Resp)
  | sendFinal (k : Key) (r : Resp)
  | ack (k : Key)

/-- One operation (manager.rs 1520-1533 and 1535-1571 for the two sends). -/
def step (net : Nat → Bool) (m : Mgr) : Op → Mgr × List Out
  | .request method via fresh c now =>
    let r := m.receiveRequest net method via fresh c now; (r.1, r.2.1)
  | .start method via b targets tu now =>
    let r := m.startClient net method via b targets tu now; (r.1, r.2.1)
  | .response via cseq r => m.receiveResponse net via cseq r
  | .serverTimer k t => m.handleServerTimer net k t
  | .clientTimer k t => m.handleClientTimer net k t
  | .command => m.command net
  | .sendProvisional k r => m.feedServer net k (.provisional r)
  | .sendFinal k r => m.feedServer net k (.final r)
  | .ack k => let r := m.ackReceived net k; (r.1, r.2.1)

/-- A history of operations: final state and all effects in order. -/
def runOps (net : Nat → Bool) : Mgr → List Op → Mgr × List Out
  | m, [] => (m, [])
  | m, op :: ops => andThen (step net m op) (fun m => runOps net m ops)

end Siphon.Manager
