import Verif.Bridge.Model
import Verif.Dialog.Prack
import Verif.Auth.Model
/-!
# The daemon as a user agent server (C118 to C121)

Model of the mode of `bins/siphond` in which it answers calls itself: `dispatcher.rs`, `invite_state.rs`, the UAS parts of
`handlers/invite.rs` (1074-1664) and `handlers/cancel.rs` (164-303), `handlers/bye.rs` (577-652), `handlers/update.rs`,
`handlers/info.rs`, `handlers/prack.rs`, and the session timer and clean-up tasks of `main.rs` (397-430).

The daemon is a transition system.  An event is a request that the transaction layer hands over, a turn of a task that is waiting,
the expiry of a session timer or a tick of the clean-up.  `main.rs` 680-690 hands over every request it receives but ACK, also one
that `receive_request` has recognised as a retransmission: then the transaction is the one of the first request, so that several
request events can have the same transaction.  Random values, the time, the results of the SDP functions (`sdp_utils.rs`, they read
a file) and of the authenticator come with the event.

Simplifications: what a task does between two points where it waits is one step, though on several threads parts of two steps can
interleave; the transaction handle, the session timers and the task that repeats a reliable response (C83) are outputs; the rate
limiters are part of the answer of the authenticator (`Guard.lean` has all three in full); the requests
with other methods than INVITE, CANCEL, BYE, UPDATE, INFO and PRACK have no effect here; the names looked up are written in full,
for which `sip_parse::header` is `Headers::get`.  A panic ends the task it happens in: what was stored before stays, nothing more
is put out.
-/
namespace Siphon.Daemon
open Siphon.Dlg (Dialog DialogId Mgr Validator copyHeader dialogIdKey)
open Siphon.Sub (pushQuiet hasText)
open Siphon.Bridge (putAll answerTo keepDialog bracket noSuchCall)
open Siphon.Proxy (firstPiece)
open Siphon.Uas (createResponse createOk cutAt acceptInvite validBody pushU ensureToTag)

/-- The configuration (`config.local_uri`, `config.enable_calls()`, `config.features`), and the NFC normalisation of the
`unicode_normalization` crate. -/
structure Cfg where
  localUri : Str
  calls : Bool
  autoAccept : Bool
  timers : Bool
  prack : Bool
  auth : Bool
  nfc : Str → Str

/-- The outcome of `check_auth` (dispatcher.rs 87-140) for a method that is not exempt. -/
inductive Gate
  | pass
  /-- a response was sent: the challenge, or 503 -/
  | refused (r : Response)
  | silent
  deriving DecidableEq, Repr

/-- What comes with an event. -/
structure Info where
  now : Nat
  tag : Str
  rnd : Nat
  /-- `generate_sdp_answer`: `none` is an error -/
  answer : Str → Run (Option Str)
  /-- `generate_sdp_offer` -/
  offer : Option Str
  gate : Gate

/-- invite_state.rs 18-33 `PendingInvite`. -/
structure Wait where
  txn : Nat
  via : Str
  «from» : Str
  to : Str
  callId : Str
  cseq : Str
  born : Nat
  deriving DecidableEq, Repr

/-- A handler that has not ended. -/
inductive Task
  /-- INVITE: the 100 was sent (invite.rs 1301) -/
  | trying (txn : Nat) (rq : Request) (me : SipUri)
  /-- INVITE: the 180 was sent (invite.rs 1405, 1423) -/
  | ringing (txn : Nat) (rq : Request) (me : SipUri) (key : Option Str)
  /-- INVITE: the final response was sent, the entry for CANCEL remains to be removed (invite.rs 1348, 1476, 1526, 1537) -/
  | closing (key : Option Str)
  /-- CANCEL: its 200 was sent (cancel.rs 216) -/
  | cancel (rq : Request)
  /-- CANCEL: the 487 was sent (cancel.rs 276) -/
  | clearing (key : Str)
  deriving DecidableEq, Repr

/-- The state of the daemon. -/
structure St where
  dialogs : Mgr
  waits : Tbl Str Wait
  tasks : Tbl Nat Task
  next : Nat
  rseqs : Tbl DialogId Nat
  validator : Validator

/-- The state at the start. -/
def init : St := ⟨Mgr.new, [], [], 0, [], Validator.empty⟩

/-- What the daemon does. -/
inductive Out
  | provisional (txn : Nat) (r : Response)
  | final (txn : Nat) (r : Response)
  /-- `session_timer_mgr.start_timer` -/
  | start (d : DialogId) (seconds : Nat) (refresher : Bool)
  /-- `session_timer_mgr.refresh_timer` -/
  | refresh (d : DialogId) (seconds : Nat) (refresher : Bool)
  /-- `schedule_reliable_retransmit` -/
  | repeating (txn : Nat) (r : Response) (key : Str) (rseq : Nat)
  deriving DecidableEq, Repr

/-- A response sent as the last act of a handler. -/
def reply (st : St) (txn : Nat) (r : Run Response) : St × List Out :=
  match r with
  | .panic => (st, [])
  | .done r => (st, [.final txn r])

/-- `UserAgentServer::create_response` (and `reject_invite`, `create_decline`, see `Uas.Answer.plain`). -/
def plain (rq : Request) (i : Info) (code : Nat) (reason : String) : Run Response :=
  createResponse rq.headers code reason.toList i.tag

/-- invite.rs 1624-1640 `copy_dialog_headers` and dispatcher.rs 219-280: a response with the first of each header and no tag. -/
def bare (rq : Request) (code : Nat) (reason : String) : Response :=
  ⟨code, reason.toList, putAll (answerTo rq.headers) .empty, []⟩

/-! ## Pending INVITEs -/

/-- invite_state.rs 63-64: the text after the first `;tag=`, up to the next semicolon. -/
def fromTag (v : Str) : Option Str := (cutAt ";tag=".toList v).map (fun p => firstPiece ';' p.2)

/-- invite_state.rs 57-76 `key_from_request`. -/
def keyOf (hs : Headers) : Option Str :=
  match hs.get "Call-ID".toList, hs.get "CSeq".toList, hs.get "From".toList with
  | some c, some s, some f =>
    match splitWhitespace s, fromTag f with
    | n :: _, some t => some (c ++ ':' :: n ++ ':' :: t)
    | _, _ => none
  | _, _, _ => none

/-- invite_state.rs 91-115 `pending_from_request`. -/
def waitOf (txn now : Nat) (hs : Headers) : Option (Str × Wait) :=
  match keyOf hs, hs.get "Via".toList, hs.get "From".toList, hs.get "To".toList, hs.get "Call-ID".toList, hs.get "CSeq".toList with
  | some k, some v, some f, some t, some c, some s => some (k, ⟨txn, v, f, t, c, s, now⟩)
  | _, _, _, _, _, _ => none

/-- invite.rs 1303-1320: the INVITE is kept for a CANCEL. -/
def keepWait (st : St) (w : Option (Str × Wait)) : St :=
  match w with
  | some (k, w) => { st with waits := st.waits.insert k w }
  | none => st

/-- invite_state.rs 136-141 `update_to_header`, with the To of the response. -/
def retag (st : St) (key : Option Str) (r : Response) : St :=
  match key, r.headers.get "To".toList with
  | some k, some to => { st with waits := st.waits.update k (fun w => { w with to := to }) }
  | _, _ => st

/-- invite_state.rs 147-156 `remove_pending_invite`. -/
def dropWait (st : St) (key : Option Str) : St :=
  match key with
  | some k => { st with waits := st.waits.remove k }
  | none => st

/-- cancel.rs 29-50 `create_487_response`. -/
def terminated (w : Wait) : Response :=
  ⟨487, "Request Terminated".toList, putAll [("Via", w.via), ("From", w.from), ("To", w.to), ("Call-ID", w.callId), ("CSeq", w.cseq),
    ("Content-Length", "0".toList)] .empty, []⟩

/-! ## Replaces -/

/-- invite.rs 1607-1616: the tags of a Replaces value; a later one replaces an earlier one. -/
def replacesTags : List Str → Option Str × Option Str → Option Str × Option Str
  | [], acc => acc
  | p :: ps, (t, f) =>
    let p := trim p
    if "to-tag=".toList.isPrefixOf p then replacesTags ps (some (trim (p.drop 7)), f)
    else if "from-tag=".toList.isPrefixOf p then replacesTags ps (t, some (trim (p.drop 9)))
    else replacesTags ps (t, f)

/-- invite.rs 1599-1621 `parse_replaces_dialog_id`. -/
def parseReplaces (v : Str) : Option DialogId :=
  match splitChar ';' v with
  | [] => none
  | c :: ps =>
    if (trim c).isEmpty then none
    else
      match replacesTags ps (none, none) with
      | (some t, some f) => if t.isEmpty || f.isEmpty then none else some ⟨trim c, t, f⟩
      | _ => none

/-- invite.rs 1581-1586 `users_equivalent`. -/
def sameUser (c : Cfg) (a b : Str) : Bool := eqIgnoreCase (c.nfc a) (c.nfc b)

/-- invite.rs 1542-1578 `replaces_initiator_authorized`. -/
def mayReplace (c : Cfg) (rq : Request) (d : Dialog) : Bool :=
  let users := d.localUri.user.toList ++ d.remoteUri.user.toList
  if c.auth then
    match Auth.extractAuthUsername rq.headers with
    | some u => users.any (fun du => sameUser c du u)
    | none => false
  else
    match (rq.headers.get "From".toList).bind Sub.parseNameAddr with
    | none => false
    | some f =>
      match f.user with
      | none => false
      | some u => users.any (fun du => sameUser c du u)

/-- invite.rs 1211-1271: the status with which an INVITE is refused for its Replaces. -/
def replacesRefused (c : Cfg) (st : St) (rq : Request) : Option (Nat × String) :=
  match rq.headers.get "Replaces".toList with
  | none => none
  | some v =>
    match parseReplaces v with
    | none => some (400, "Bad Request")
    | some id =>
      match st.dialogs.get id with
      | none => some (481, "Call/Transaction Does Not Exist")
      | some d => if mayReplace c rq d then none else some (481, "Call/Transaction Does Not Exist")

/-! ## Requests within a dialog -/

/-- invite.rs 1137-1170 and update.rs 77-97: the body of the 200.  `offers` says that an empty body asks for an offer. -/
inductive Sdp
  | died
  | refused
  | body (b : Option Str)

def sdpFor (i : Info) (offers : Bool) (body : Bytes) : Sdp :=
  if !body.isEmpty then
    match utf8Decode body with
    | none => .body none
    | some o =>
      match i.answer o with
      | .panic => .died
      | .done none => .refused
      | .done (some a) => .body (some a)
  else if offers then
    match i.offer with
    | none => .refused
    | some o => .body (some o)
  else .body none

/-- invite.rs 1186-1197: the session timer of the dialog. -/
def timerOf (mk : DialogId → Nat → Bool → Out) (c : Cfg) (d : Dialog) : List Out :=
  if c.timers then
    match d.sessionExpires with
    | some s => [mk d.id s (Dlg.siphondRefreshes d.refresher)]
    | none => []
  else []

/-- invite.rs 1119-1201 (re-INVITE) and update.rs 55-115 (UPDATE), for the dialog found.  The latter has no offer, ends with an
error and no response if the local URI cannot be parsed, and leaves the session timer. -/
def modify (c : Cfg) (st : St) (txn : Nat) (rq : Request) (i : Info) (re : Bool) (d : Dialog) : St × List Out :=
  match d.updateFromRequest rq with
  | (.error _, _) => reply st txn (plain rq i 400 "Bad Request")
  | (.ok (), d) =>
    match sdpFor i re rq.body with
    | .died => (st, [])
    | .refused => reply st txn (plain rq i 488 "Not Acceptable Here")
    | .body b =>
      match SipUri.parse c.localUri with
      | none => if re then reply st txn (plain rq i 500 "Server Error") else (st, [])
      | some me =>
        if !validBody b then (st, [])
        else
          match createOk me rq.headers i.tag b with
          | .panic => (st, [])
          | .done ok =>
            let d := d.updateFromResponse ok
            ({ st with dialogs := keepDialog st.dialogs d }, (if re then timerOf .refresh c d else []) ++ [.final txn ok])

/-- update.rs 53-66, info.rs 56-66, prack.rs 56-69: the dialog of a request, or 481. -/
def within (st : St) (txn : Nat) (rq : Request) (i : Info) (k : Dialog → St × List Out) : St × List Out :=
  match st.dialogs.findByRequest rq.headers with
  | .panic => (st, [])
  | .done none => reply st txn (plain rq i 481 "Call/Transaction Does Not Exist")
  | .done (some d) => k d

/-- bye.rs 577-628. -/
def onBye (st : St) (txn : Nat) (rq : Request) (i : Info) : St × List Out :=
  match st.dialogs.findByRequest rq.headers with
  | .panic => (st, [])
  | .done none => (st, [.final txn (noSuchCall rq)])
  | .done (some d) =>
    match plain rq i 200 "OK" with
    | .panic => (st, [])
    | .done r => ({ st with dialogs := st.dialogs.remove d.id }, [.final txn r])

/-- prack.rs 71-92, with sip-uas lib.rs 1327-1356 `handle_prack`. -/
def onPrack (c : Cfg) (st : St) (txn : Nat) (rq : Request) (i : Info) (d : Dialog) : St × List Out :=
  match SipUri.parse c.localUri with
  | none => reply st txn (plain rq i 500 "Server Error")
  | some me =>
    match Dlg.handlePrack st.validator d.id i.now rq.headers with
    | .panic => (st, [])
    | .done (none, v) => ({ st with validator := v }, [])
    | .done (some code, v) =>
      reply { st with validator := v } txn
        (if code = 200 then createOk me rq.headers i.tag none
         else if code = 400 then plain rq i 400 "Bad Request"
         else plain rq i 481 "Call/Transaction Does Not Exist")

/-! ## Calls -/

/-- A task starts to wait. -/
def spawn (st : St) (t : Task) : St := { st with tasks := st.tasks.insert st.next t, next := st.next + 1 }

/-- sip-uas lib.rs 581-603 `validate_session_timer` without a minimum: the Min-SE of the 422. -/
def timerTooSmall (hs : Headers) : Option Nat :=
  match (hs.get "Session-Expires".toList).bind SessionExpires.parse with
  | none => none
  | some se =>
    match Dlg.validateSessionExpires se.delta none with
    | .error m => some m
    | .ok _ => none

/-- sip-uas lib.rs 555-566 `create_session_interval_too_small`. -/
def tooSmall (rq : Request) (i : Info) (m : Nat) : Run Response := do
  let r ← createResponse rq.headers 422 "Session Interval Too Small".toList i.tag
  let r ← pushU r "Min-SE" (showNat m)
  ensureToTag r i.tag

/-- invite.rs 1272-1301: a new call, up to the 100. -/
def greet (c : Cfg) (st : St) (txn : Nat) (rq : Request) (i : Info) : St × List Out :=
  if !c.autoAccept then reply st txn (plain rq i 486 "Busy Here")
  else
    match (if c.timers then timerTooSmall rq.headers else none) with
    | some m => reply st txn (tooSmall rq i m)
    | none =>
      match SipUri.parse c.localUri with
      | none => (st, [])
      | some me =>
        match plain rq i 100 "Trying" with
        | .panic => (st, [])
        | .done r => (spawn st (.trying txn rq me), [.provisional txn r])

/-- invite.rs 1110-1301: an INVITE.  The dialog is looked up twice (1119, 1120); the step has it once. -/
def onInvite (c : Cfg) (st : St) (txn : Nat) (rq : Request) (i : Info) : St × List Out :=
  if !c.calls then reply st txn (plain rq i 603 "Decline")
  else
    match st.dialogs.findByRequest rq.headers with
    | .panic => (st, [])
    | .done (some d) => modify c st txn rq i true d
    | .done none =>
      match replacesRefused c st rq with
      | some (code, reason) => reply st txn (plain rq i code reason)
      | none => greet c st txn rq i

/-- invite.rs 1369-1398: the reliable 180.  The early dialog is stored, the response gets its number.  `none` is a panic. -/
def reliable (c : Cfg) (st : St) (rq : Request) (i : Info) (me : SipUri) (r : Response) :
    Option (St × Response × Option (Str × Nat)) :=
  match (rq.headers.get "From".toList).bind Sub.parseNameAddr with
  | none => some (st, r, none)
  | some remote =>
    match Dialog.newUas rq r me remote with
    | .panic => none
    | .done none => some (st, r, none)
    | .done (some d) =>
      let key := dialogIdKey d.id
      let (n, rseqs) := Dlg.nextRSeq st.rseqs d.id i.rnd
      let hs := putAll [("RSeq", showNat n), ("Require", "100rel".toList), ("Contact", bracket c.localUri)] r.headers
      let validator := match (rq.headers.get "CSeq".toList).bind (fun v =>
          match splitWhitespace v with
          | w :: _ => parseDec MAX_U32 w
          | [] => none) with
        | some cseq => st.validator.register key i.now n cseq rq.method 180
        | none => st.validator
      some ({ st with dialogs := keepDialog st.dialogs d, rseqs := rseqs, validator := validator }, { r with headers := hs },
        some (key, n))

/-- invite.rs 1360-1366: whether the 180 is to be reliable. -/
def wantsReliable (c : Cfg) (rq : Request) : Bool :=
  c.prack && (match rq.headers.get "Supported".toList with | some v => hasText "100rel".toList v | none => false)

/-- invite.rs 1357-1424: the 180.  `st` has no entry for the task any more. -/
def ring (c : Cfg) (st : St) (id txn : Nat) (rq : Request) (i : Info) (me : SipUri) (key : Option Str) : St × List Out :=
  match plain rq i 180 "Ringing" with
  | .panic => (st, [])
  | .done r =>
    match (if wantsReliable c rq then reliable c st rq i me r else some (st, r, none)) with
    | none => (st, [])
    | some (st, r, rel) =>
      let st := retag st key r
      ({ st with tasks := st.tasks.insert id (.ringing txn rq me key) },
       .provisional txn r :: (match rel with | some (k, n) => [.repeating txn r k n] | none => []))

/-- A final response, after which the entry for CANCEL is removed. -/
def finalThenClose (st : St) (id txn : Nat) (key : Option Str) (r : Response) : St × List Out :=
  ({ st with tasks := st.tasks.insert id (.closing key) }, [.final txn r])

/-- invite.rs 1303-1424: the turn after the 100. -/
def afterTrying (c : Cfg) (st : St) (id txn : Nat) (rq : Request) (i : Info) (me : SipUri) : St × List Out :=
  let w := waitOf txn i.now rq.headers
  let key := w.map (·.1)
  let st := keepWait st w
  if rq.body.isEmpty then ring c st id txn rq i me key
  else
    match utf8Decode rq.body with
    | none => ring c st id txn rq i me key
    | some o =>
      match i.answer o with
      | .panic => (st, [])
      | .done none => finalThenClose st id txn key (bare rq 488 "Not Acceptable Here")
      | .done (some _) => ring c st id txn rq i me key

/-- invite.rs 1434-1480: the body of the 200.  Unlike in `sdpFor` an offer that is refused now gets no answer. -/
def answerBody (i : Info) (body : Bytes) : Sdp :=
  if !body.isEmpty then
    match utf8Decode body with
    | none => .body none
    | some o =>
      match i.answer o with
      | .panic => .died
      | .done a => .body a
  else
    match i.offer with
    | none => .refused
    | some o => .body (some o)

/-- invite.rs 1488-1500: the session timer headers of the 200. -/
def timerHeaders (c : Cfg) (r : Response) : Response :=
  if c.timers && (r.headers.get "Session-Expires".toList).isNone then
    { r with headers := putAll [("Session-Expires", "1800".toList), ("Supported", "timer".toList), ("Min-SE", "90".toList)] r.headers }
  else r

/-- invite.rs 1432-1540: the turn after the 180. -/
def afterRinging (c : Cfg) (st : St) (id txn : Nat) (rq : Request) (i : Info) (me : SipUri) (key : Option Str) : St × List Out :=
  match answerBody i rq.body with
  | .died => (st, [])
  | .refused => finalThenClose st id txn key (bare rq 488 "Not Acceptable Here")
  | .body b =>
    match acceptInvite ⟨me, me, st.dialogs⟩ none true rq b i.tag with
    | .panic => (st, [])
    | .done (.accepted r d, s) =>
      let r := timerHeaders c r
      let d := if c.timers then d.updateFromResponse r else d
      ({ st with dialogs := keepDialog s.dialogs d, tasks := st.tasks.insert id (.closing key) }, timerOf .start c d ++ [.final txn r])
    | .done (_, s) =>
      match plain rq i 603 "Decline" with
      | .panic => ({ st with dialogs := s.dialogs }, [])
      | .done r => finalThenClose { st with dialogs := s.dialogs } id txn key r

/-! ## CANCEL -/

/-- cancel.rs 195-216. -/
def onCancel (c : Cfg) (st : St) (txn : Nat) (rq : Request) (i : Info) : St × List Out :=
  match SipUri.parse c.localUri with
  | none => reply st txn (plain rq i 500 "Server Error")
  | some _ =>
    match plain rq i 200 "OK" with
    | .panic => (st, [])
    | .done r => (spawn st (.cancel rq), [.final txn r])

/-- cancel.rs 258-287. -/
def afterCancel (st : St) (id : Nat) (rq : Request) : St × List Out :=
  match keyOf rq.headers with
  | none => (st, [])
  | some k =>
    match st.waits.get k with
    | none => (st, [])
    | some w => ({ st with tasks := st.tasks.insert id (.clearing k) }, [.final w.txn (terminated w)])

/-! ## The daemon -/

/-- dispatcher.rs 183-195: Max-Forwards is 0. -/
def noHops (hs : Headers) : Bool :=
  match hs.get "Max-Forwards".toList with
  | some v => decide (parseDec MAX_U32 v = some 0)
  | none => false

/-- dispatcher.rs 99-105: the methods that are not authenticated. -/
def exempt (m : Method) : Bool := m == .ack || m == .cancel || m == .options || m == .register

/-- dispatcher.rs 38-52, 202-216: the handlers; they are there only if calls are enabled. -/
def handle (c : Cfg) (st : St) (txn : Nat) (rq : Request) (i : Info) : St × List Out :=
  if [.invite, .cancel, .bye, .prack, .update, .info].contains rq.method then
    if !c.calls then (st, [.final txn (bare rq 501 "Not Implemented")])
    else if rq.method = .invite then onInvite c st txn rq i
    else if rq.method = .cancel then onCancel c st txn rq i
    else if rq.method = .bye then onBye st txn rq i
    else if rq.method = .prack then within st txn rq i (onPrack c st txn rq i)
    else if rq.method = .update then within st txn rq i (modify c st txn rq i false)
    else within st txn rq i (fun _ => reply st txn (plain rq i 200 "OK"))
  else (st, [])

/-- dispatcher.rs 172-217 `dispatch`. -/
def dispatch (c : Cfg) (st : St) (txn : Nat) (rq : Request) (i : Info) : St × List Out :=
  if noHops rq.headers then (st, [.final txn (bare rq 483 "Too Many Hops")])
  else if exempt rq.method then handle c st txn rq i
  else
    match i.gate with
    | .pass => handle c st txn rq i
    | .refused r => (st, [.final txn r])
    | .silent => (st, [])

/-- The turn of a task. -/
def turn (c : Cfg) (st : St) (id : Nat) (i : Info) : St × List Out :=
  match st.tasks.get id with
  | none => (st, [])
  | some t =>
    let st := { st with tasks := st.tasks.remove id }
    match t with
    | .trying txn rq me => afterTrying c st id txn rq i me
    | .ringing txn rq me key => afterRinging c st id txn rq i me key
    | .closing key => (dropWait st key, [])
    | .cancel rq => afterCancel st id rq
    | .clearing k => (dropWait st (some k), [])

/-- The events. -/
inductive Ev
  | request (txn : Nat) (rq : Request) (i : Info)
  | turn (id : Nat) (i : Info)
  /-- `SessionTimerEvent::SessionExpired` -/
  | expired (d : DialogId)
  /-- the clean-up, every 60 seconds -/
  | sweep (now : Nat)

/-- main.rs 397-415 and 424-430; the time is in nanoseconds. -/
def step (c : Cfg) (st : St) : Ev → St × List Out
  | .request txn rq i => dispatch c st txn rq i
  | .turn id i => turn c st id i
  | .expired d => (if c.timers then { st with dialogs := st.dialogs.remove d } else st, [])
  | .sweep now => ({ st with waits := st.waits.filter (fun e => now - e.2.born < 300 * 10 ^ 9) }, [])

/-- A run of the daemon. -/
def run (c : Cfg) : St → List Ev → St × List Out
  | st, [] => (st, [])
  | st, e :: es =>
    let (st, o) := step c st e
    let (st', o') := run c st es
    (st', o ++ o')

end Siphon.Daemon
