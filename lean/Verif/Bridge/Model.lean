import Verif.Sub.Refer
import Verif.Uas.Response
import Verif.Proxy.Helpers
import Verif.Base.Percent
/-!
# The back-to-back user agent (C113 to C117)

Model of the B2BUA mode of `bins/siphond`: `b2bua_state.rs`, the B2BUA parts of `handlers/invite.rs`, `handlers/bye.rs` and
`handlers/cancel.rs`, and `create_b2bua_ack`, the bridging of ACK and of responses and the periodic clean-up of `main.rs`.

The daemon is a transition system.  An event is a request or a response from the network, a turn of the task that relays the
responses of one call (one `recv` of its channel), a later part of the handling of a CANCEL, or a tick of the clean-up.  Random
values, the time and the choice of a map iteration among several matches come with the event.

Simplifications: each event is one step, though on several threads parts of two of them can interleave (the handling of a CANCEL,
which waits for the network in its middle, is three steps); `send_tcp`, `send_udp` and the transaction handle are outputs, and a
message is put out once, with no retry and no failure, so that the fallback of a BYE from UDP to TCP (bye.rs 240-355) is left out;
the rate limiter before `handle_b2bua` is left out; the names looked up are written in full, for which `sip_parse::header` is
`Headers::get`; a body that came in a parsed message fits in a message.  A panic ends the task it happens in: what was stored
before stays, nothing more is put out.
-/
namespace Siphon.Bridge
open Siphon.Dlg (Dialog DialogId Mgr Ua angle create Kind copyHeader)
open Siphon.Sub (Addr parseSocket createInvite pushQuiet)
open Siphon.Proxy (findPrefixed firstPiece)

/-! ## Texts -/

/-- invite.rs 577-589: the tag of a To value. -/
def toTag (to : Str) : Option Str := findPrefixed "tag=".toList (splitChar ';' to)

/-- invite.rs 370-382, 610-625, 633-642, 685-699: the URI of a header value.  Without a closing bracket it ends with the value. -/
def uriIn (v : Str) : Str :=
  match splitOnce '<' v with
  | some (_, rest) =>
    match splitOnce '>' rest with
    | some (u, _) => u
    | none => rest
  | none => trim (firstPiece ';' v)

/-- The URI of a header value, parsed. -/
def uriOf (v : Str) : Option SipUri := SipUri.parse (uriIn v)

/-- `format!("{}:{}", uri.host(), uri.port().unwrap_or(5060)).parse::<SocketAddr>()` (invite.rs 508-513, main.rs 629-636, bye.rs
545-551, cancel.rs 139-144). -/
def socketOf (u : SipUri) : Option (Addr × Nat) :=
  parseSocket (u.host ++ ':' :: showNat (match u.port with | some p => p | none => 5060))

/-- A sequence of `let _ = headers.push(name, value)`. -/
def putAll : List (String × Str) → Headers → Headers
  | [], hs => hs
  | (n, v) :: l, hs => putAll l (pushQuiet hs n v)

/-- `<text>`. -/
def bracket (s : Str) : Str := '<' :: s ++ ">".toList

/-- `str::trim_start_matches("sip:")`. -/
def trimSip : Str → Str
  | 's' :: 'i' :: 'p' :: ':' :: s => trimSip s
  | s => s

/-! ## The calls -/

/-- The configuration: `config.local_uri` and the product token of `UserAgentClient::new` (sip-uac lib.rs 50, 278). -/
structure Cfg where
  localUri : Str
  agent : Str
  deriving DecidableEq, Repr

/-- b2bua_state.rs 19-50 `CallLegPair`.  `chan` is the sending end of the channel to the relay task. -/
structure Leg where
  outId : Str
  chan : Nat
  inId : Str
  caller : Request
  invite : Request
  callee : SipUri
  tag : Option Str
  uas : Option Dialog
  uac : Option Dialog
  born : Nat
  deriving DecidableEq, Repr

/-! ## The response for the caller -/

/-- invite.rs 560-603, 669-672: the headers that identify the caller's transaction and dialog. -/
def idHeaders (caller : Headers) (cid frm to cseq : Str) (tag : Option Str) : List (String × Str) :=
  (caller.getAll "Via".toList).map (fun v => ("Via", v)) ++ [("Call-ID", cid), ("From", frm), ("CSeq", cseq),
    ("To", match tag with | some t => to ++ ";tag=".toList ++ t | none => to)]

/-- invite.rs 740-745: the headers copied from the callee. -/
def copied : List String := ["Allow", "Supported", "Server", "User-Agent", "RSeq", "Require"]

/-- invite.rs 716-751: the headers after those. -/
def restHeaders (cfg : Cfg) (r : Response) : List (String × Str) :=
  [("Contact", bracket cfg.localUri)] ++
    (if r.body.isEmpty then [("Content-Length", "0".toList)]
     else copyHeader r.headers "Content-Type" ++ [("Content-Length", showNat r.body.length)]) ++
    copied.flatMap (copyHeader r.headers)

/-- proxy_utils.rs 48-60 `strip_hop_by_hop_response_headers` (and 27-39, the one for requests).  Simplification: the headers kept
were stored before, so storing them again does not fail. -/
def stripHop (hs : Headers) : Headers :=
  hs.retain (fun h => !(h.nameEq "Proxy-Authenticate".toList || h.nameEq "Proxy-Authorization".toList))

/-- `let _ = headers.set_or_push(name, value)`. -/
def setQuiet (hs : Headers) (n : String) (v : Str) : Headers :=
  match hs.setOrPush n.toList v with
  | .ok hs' => hs'
  | .error _ => hs

/-- invite.rs 753-785: the finished response. -/
def finish (r : Response) (hs : Headers) : Response :=
  if r.code = 407 then ⟨502, "Bad Gateway".toList, setQuiet (stripHop hs) "Content-Length" "0".toList, []⟩
  else ⟨r.code, r.reason, stripHop hs, r.body⟩

/-- invite.rs 605-663: the dialog with the callee. -/
def uacDialog (leg : Leg) (r : Response) : Run (Option Dialog) :=
  match (leg.invite.headers.get "From".toList).bind uriOf, (r.headers.get "Contact".toList).bind uriOf with
  | some l, some c => Dialog.newUac leg.invite r l c
  | _, _ => .done none

/-- invite.rs 674-712: the dialog with the caller; `hs` are the headers so far. -/
def uasDialog (cfg : Cfg) (leg : Leg) (frm : Str) (hs : Headers) (r : Response) : Run (Option Dialog) :=
  match uriOf frm, SipUri.parse cfg.localUri with
  | some c, some b => Dialog.newUas leg.caller ⟨200, "OK".toList, hs, r.body⟩ b c
  | _, _ => .done none

/-- `let _ = dialog_mgr.insert(dialog)`. -/
def keepDialog (m : Mgr) (d : Dialog) : Mgr := (m.insert d).2

/-- invite.rs 597-712: what an accepted call stores, in this order: the tag, the dialog with the callee, the dialog with the
caller.  The flag is false when the task panicked. -/
def establish (cfg : Cfg) (leg : Leg) (m : Mgr) (frm tag : Str) (hs : Headers) (r : Response) : Bool × Leg × Mgr :=
  let leg := { leg with tag := some tag }
  match uacDialog leg r with
  | .panic => (false, leg, m)
  | .done d =>
    let (leg, m) := match d with
      | some d => ({ leg with uac := some d }, keepDialog m d)
      | none => (leg, m)
    match uasDialog cfg leg frm hs r with
    | .panic => (false, leg, m)
    | .done (some d) => (true, { leg with uas := some d }, keepDialog m d)
    | .done none => (true, leg, m)

/-- What the transformation comes to. -/
inductive Made
  /-- `None` -/
  | nothing
  | response (r : Response)
  /-- the task panicked -/
  | died
  deriving DecidableEq, Repr

/-- invite.rs 538-795 `transform_response_for_caller`, for the leg that was found. -/
def transform (cfg : Cfg) (leg : Leg) (m : Mgr) (r : Response) : Made × Leg × Mgr :=
  match leg.caller.headers.get "Call-ID".toList, leg.caller.headers.get "From".toList, leg.caller.headers.get "To".toList,
      leg.caller.headers.get "CSeq".toList with
  | some cid, some frm, some to, some cseq =>
    let tag := (r.headers.get "To".toList).bind toTag
    let hs := putAll (idHeaders leg.caller.headers cid frm to cseq tag) .empty
    let res := Made.response (finish r (putAll (restHeaders cfg r) hs))
    match tag with
    | none => (res, leg, m)
    | some t =>
      if 200 ≤ r.code ∧ r.code < 300 then
        match establish cfg leg m frm t hs r with
        | (true, leg, m) => (res, leg, m)
        | (false, leg, m) => (.died, leg, m)
      else (res, leg, m)
  | _, _, _, _ => (.nothing, leg, m)

/-! ## The requests to the other party -/

/-- main.rs 505-513 and bye.rs 505-525: the number of the INVITE, with what follows it, for another method. -/
def cseqBefore (hs : Headers) : Option Str :=
  match hs.get "CSeq".toList with
  | none => none
  | some v => (splitOnce ' ' v).map (·.1)

/-- main.rs 473-547 `create_b2bua_ack`. -/
def bridgedAck (leg : Leg) (branch : Str) (ack : Request) : Request :=
  let hs := [("Via", "SIP/2.0/TCP placeholder;branch=".toList ++ branch)] ++ copyHeader leg.invite.headers "From" ++
    (match leg.invite.headers.get "To".toList with
     | none => []
     | some to => [("To", match leg.tag with | some t => to ++ ";tag=".toList ++ t | none => to)]) ++
    [("Call-ID", leg.outId)] ++
    (match cseqBefore leg.invite.headers with | some n => [("CSeq", n ++ " ACK".toList)] | none => []) ++
    [("Max-Forwards", "70".toList)] ++
    (if ack.body.isEmpty then [("Content-Length", "0".toList)]
     else copyHeader ack.headers "Content-Type" ++ [("Content-Length", showNat ack.body.length)])
  ⟨.ack, leg.callee.raw, putAll hs .empty, ack.body⟩

/-- `num.parse::<u32>()`, `saturating_add(1)` (bye.rs 149-160, 515-525). -/
def byeCSeq (hs : Headers) : List (String × Str) :=
  match (cseqBefore hs).bind (parseDec MAX_U32) with
  | some n => [("CSeq", showNat (if n < MAX_U32 then n + 1 else n) ++ " BYE".toList)]
  | none => []

/-- bye.rs 489-500: the callee's tag, from the dialog or else from the answer. -/
def calleeTag (leg : Leg) : Option Str :=
  match leg.uac with
  | some d => some d.id.remoteTag
  | none => leg.tag

/-- bye.rs 462-541: the BYE for the callee. -/
def byeToCallee (cfg : Cfg) (leg : Leg) (branch : Str) : Request :=
  let hs := [("Via", "SIP/2.0/TCP ".toList ++ trimSip cfg.localUri ++ ";branch=".toList ++ branch)] ++
    copyHeader leg.invite.headers "From" ++
    (match calleeTag leg, leg.invite.headers.get "To".toList with
     | some t, some to => [("To", to ++ ";tag=".toList ++ t)]
     | _, _ => []) ++
    [("Call-ID", leg.outId)] ++ byeCSeq leg.invite.headers ++ [("Max-Forwards", "70".toList), ("Content-Length", "0".toList)]
  ⟨.bye, leg.callee.raw, putAll hs .empty, []⟩

/-- `str::trim_end_matches(';')`. -/
def trimEndSemi (s : Str) : Str := (s.reverse.dropWhile (· == ';')).reverse

/-- bye.rs 65-84: the URI of the caller's Contact; without a closing bracket it is the whole value. -/
def contactIn (v : Str) : Str :=
  match splitOnce '<' v with
  | some (_, rest) =>
    match splitOnce '>' rest with
    | some (u, _) => u
    | none => v
  | none => v

/-- bye.rs 63-112: where a BYE for the caller goes; `none` when there is no usable Contact. -/
def callerTarget (leg : Leg) : Option SipUri :=
  match leg.caller.headers.get "Contact".toList with
  | none => none
  | some v =>
    match Uri.parse (contactIn v) with
    | some (.sip u) => some u
    | _ => none

/-- bye.rs 117-170, 183-217: the BYE for the caller, over UDP. -/
def byeToCaller (cfg : Cfg) (leg : Leg) (branch : Str) (target : SipUri) : Request :=
  let hs := [("Via", "SIP/2.0/UDP ".toList ++ trimSip cfg.localUri ++ ";branch=".toList ++ branch)] ++
    (match leg.tag, leg.caller.headers.get "To".toList with
     | some t, some to => [("From", trimEndSemi to ++ ";tag=".toList ++ t)]
     | none, some to => [("From", to)]
     | _, none => []) ++
    (match leg.caller.headers.get "From".toList with | some f => [("To", f)] | none => []) ++
    [("Call-ID", leg.inId)] ++ byeCSeq leg.caller.headers ++ [("Max-Forwards", "70".toList), ("Content-Length", "0".toList)]
  ⟨.bye, target.raw, putAll hs .empty, []⟩

/-- bye.rs 634-652 `copy_headers`, and cancel.rs 58-74: the first of each header that an answer needs. -/
def answerTo (hs : Headers) : List (String × Str) :=
  copyHeader hs "Via" ++ copyHeader hs "From" ++ copyHeader hs "To" ++ copyHeader hs "Call-ID" ++ copyHeader hs "CSeq"

/-- bye.rs 377-396: the answer to a BYE of an unknown call. -/
def noSuchCall (rq : Request) : Response :=
  ⟨481, "Call/Transaction Does Not Exist".toList, putAll (answerTo rq.headers) .empty, []⟩

/-- cancel.rs 53-84 `create_487_from_request`. -/
def terminated (rq : Request) : Response :=
  ⟨487, "Request Terminated".toList, putAll (answerTo rq.headers ++ [("Content-Length", "0".toList)]) .empty, []⟩

/-- cancel.rs 110-136: the CANCEL for the callee. -/
def bridgedCancel (leg : Leg) : Request :=
  let hs := match leg.invite.headers.get "CSeq".toList with
    | some v =>
      match splitWhitespace v with
      | n :: _ => setQuiet leg.invite.headers "CSeq" (n ++ " CANCEL".toList)
      | [] => leg.invite.headers
    | none => leg.invite.headers
  ⟨.cancel, leg.invite.uri, pushQuiet (hs.retain (fun h => !h.nameEq "Content-Length".toList)) "Content-Length" "0".toList, []⟩

/-! ## Placing a call -/

/-- The location store's answer to a key: the contacts, nothing on an error. -/
abbrev Lookup := Str → List Str

/-- The first non-empty answer. -/
def firstFound (look : Lookup) : List Str → List Str
  | [] => []
  | k :: ks => if (look k).isEmpty then firstFound look ks else look k

/-- invite.rs 297-345: the keys tried for a callee, in order. -/
def keysFor (u : SipUri) : List Str :=
  let base := "sip:".toList ++ (match u.user with | some x => x | none => []) ++ '@' :: u.host
  [u.raw, base ++ ";transport=UDP".toList, base ++ ";transport=TCP".toList, base]

/-- The random values of an event. -/
structure Fresh where
  branch : Str
  callId : Str
  tag : Str
  reply : Str
  deriving DecidableEq, Repr

/-- What becomes of a new call. -/
inductive Placed
  | refused (r : Response)
  /-- the handler ends with an error or a panic before anything is stored: it answers nothing more -/
  | failed
  | stored (leg : Leg)
  deriving DecidableEq, Repr

/-- invite.rs 284-463, after the 100 Trying. -/
def placeCall (cfg : Cfg) (look : Lookup) (f : Fresh) (now txn : Nat) (rq : Request) : Placed :=
  match SipUri.parse rq.uri with
  | none => .failed
  | some target =>
    match firstFound look (keysFor target) with
    | [] => .refused ⟨404, "Not Found".toList, rq.headers, []⟩
    | c :: _ =>
      match SipUri.parse c, (rq.headers.get "From".toList).bind uriOf, SipUri.parse cfg.localUri,
          (if rq.body.isEmpty then some none else (utf8Decode rq.body).map some) with
      | some callee, some callerUri, some me, some sdp =>
        match createInvite ⟨callerUri, me, none, cfg.agent⟩ f.branch f.callId f.tag callee sdp with
        | .panic => .failed
        | .done invite =>
          .stored ⟨f.callId, txn, (match rq.headers.get "Call-ID".toList with | some c => c | none => "unknown".toList), rq, invite,
            callee, none, none, none, now⟩
      | _, _, _, _ => .failed

/-! ## The daemon -/

/-- The receiving end of a leg's channel: the relay task of one call (invite.rs 466-525). -/
structure Chan where
  outId : Str
  queue : List Response
  live : Bool
  deriving DecidableEq, Repr

/-- A CANCEL whose handling has not ended: the Call-ID, and whether the CANCEL was passed on. -/
structure Cancel where
  callId : Str
  passed : Bool
  deriving DecidableEq, Repr

/-- The state: the call legs (b2bua_state.rs 53-56), the channels by the transaction of the INVITE, the dialogs, the number of
transactions so far, the CANCELs under way. -/
structure St where
  legs : Tbl Str Leg
  chans : Tbl Nat Chan
  mgr : Mgr
  next : Nat
  cancels : List Cancel
  deriving DecidableEq, Repr

/-- At the start. -/
def init : St := ⟨[], [], Mgr.new, 0, []⟩

/-- What is put out: a response to a server transaction, or a request to an address. -/
inductive Out
  | reply (txn : Nat) (r : Response)
  | tcp (to : Addr × Nat) (rq : Request)
  | udp (to : Addr × Nat) (rq : Request)
  deriving DecidableEq, Repr

/-- One of the matches of a search through a map: which one depends on the map. -/
def choose {α : Type} (i : Nat) (l : List α) : Option α := l[i % l.length]?

/-- b2bua_state.rs 82-87 `find_call_leg_by_incoming`. -/
def byIncoming (s : St) (i : Nat) (cid : Str) : Option Leg :=
  choose i ((s.legs.map (·.2)).filter (fun l => l.inId == cid))

/-- b2bua_state.rs 117-143 `find_by_uac_dialog` and `find_by_uas_dialog`. -/
def byDialog (s : St) (i : Nat) (get : Leg → Option Dialog) (id : DialogId) : Option Leg :=
  choose i ((s.legs.map (·.2)).filter (fun l => match get l with | some d => d.id == id | none => false))

/-- The events. -/
inductive Ev
  | invite (rq : Request) (look : Lookup) (f : Fresh) (now i : Nat)
  | ack (rq : Request) (i : Nat) (branch : Str)
  | bye (rq : Request) (i : Nat) (f : Fresh)
  | cancel (rq : Request) (i : Nat) (f : Fresh)
  /-- the next part of the handling of a CANCEL -/
  | cancelOn (k i : Nat)
  | response (r : Response)
  /-- the relay task of a call takes a response from its channel -/
  | relay (txn : Nat)
  | sweep (now : Nat)

/-- A message to an address that was read, or nothing. -/
def sendTcp (to : Option (Addr × Nat)) (rq : Request) : List Out :=
  match to with
  | some a => [.tcp a rq]
  | none => []

/-- `create_response(request, code, reason)` given to the transaction; nothing if it panics. -/
def answer (txn : Nat) (hs : Headers) (code : Nat) (reason tag : Str) : List Out :=
  match Uas.createResponse hs code reason tag with
  | .done r => [.reply txn r]
  | .panic => []

/-- invite.rs 83-260 `handle_b2bua_reinvite`, after the 100, for the dialog that was found: the request for the other party, and
the 200 for the sender. -/
def reinvite (cfg : Cfg) (s : St) (i txn : Nat) (branch : Str) (d : Dialog) (rq : Request) : List Out :=
  let fromUac := byDialog s i (·.uac) d.id
  let other := match fromUac with
    | some l => l.uas
    | none => (byDialog s i (·.uas) d.id).bind (·.uac)
  match other, SipUri.parse cfg.localUri with
  | some o, some me =>
    let sdp := if rq.body.isEmpty then none else utf8Decode rq.body
    match create ⟨me, me, none, cfg.agent⟩ branch o (.reinvite sdp), socketOf o.remoteTarget with
    | .done out, some a =>
      let hs := copyHeader rq.headers "Via" ++ copyHeader rq.headers "From" ++ copyHeader rq.headers "To" ++
        copyHeader rq.headers "Call-ID" ++ copyHeader rq.headers "CSeq" ++ [("Contact", bracket cfg.localUri)] ++
        (if rq.body.isEmpty then [("Content-Length", "0".toList)]
         else copyHeader rq.headers "Content-Type" ++ [("Content-Length", showNat rq.body.length)])
      [.tcp a out, .reply txn ⟨200, "OK".toList, putAll hs .empty, rq.body⟩]
    | _, _ => []
  | _, _ => []

/-- invite.rs 262-535 `handle_b2bua`. -/
def onInvite (cfg : Cfg) (s : St) (rq : Request) (look : Lookup) (f : Fresh) (now i : Nat) : St × List Out :=
  let txn := s.next
  let s := { s with next := s.next + 1 }
  match s.mgr.findByRequest rq.headers with
  | .panic => (s, [])
  | .done (some d) =>
    match Uas.createResponse rq.headers 100 "Trying".toList f.reply with
    | .panic => (s, [])
    | .done t => (s, .reply txn t :: reinvite cfg s i txn f.branch d rq)
  | .done none =>
    match Uas.createResponse rq.headers 100 "Trying".toList f.reply with
    | .panic => (s, [])
    | .done t =>
      match placeCall cfg look f now txn rq with
      | .failed => (s, [.reply txn t])
      | .refused r => (s, [.reply txn t, .reply txn r])
      | .stored leg =>
        ({ s with legs := s.legs.insert leg.outId leg, chans := s.chans.insert txn ⟨leg.outId, [], true⟩ },
          .reply txn t :: sendTcp (socketOf leg.callee) leg.invite)

/-- main.rs 611-660: an ACK is passed on to the callee. -/
def onAck (s : St) (rq : Request) (i : Nat) (branch : Str) : List Out :=
  match rq.headers.get "Call-ID".toList with
  | none => []
  | some cid =>
    match byIncoming s i cid with
    | none => []
    | some leg => sendTcp (socketOf leg.callee) (bridgedAck leg branch rq)

/-- The Call-ID a handler works with (bye.rs 571-573, cancel.rs 171-173). -/
def callIdOf (rq : Request) : Str :=
  match rq.headers.get "Call-ID".toList with
  | some c => c
  | none => "unknown".toList

/-- bye.rs 31-560 `handle_b2bua_bye`. -/
def onBye (cfg : Cfg) (s : St) (rq : Request) (i : Nat) (f : Fresh) : St × List Out :=
  let txn := s.next
  let s := { s with next := s.next + 1 }
  match byIncoming s i (callIdOf rq) with
  | some leg =>
    match Uas.createResponse rq.headers 200 "OK".toList f.reply with
    | .panic => (s, [])
    | .done ok =>
      ({ s with legs := s.legs.remove leg.outId }, .reply txn ok :: sendTcp (socketOf leg.callee) (byeToCallee cfg leg f.branch))
  | none =>
    match s.legs.get (callIdOf rq) with
    | none => (s, [.reply txn (noSuchCall rq)])
    | some leg =>
      match Uas.createResponse rq.headers 200 "OK".toList f.reply with
      | .panic => (s, [])
      | .done ok =>
        let s := { s with legs := s.legs.remove leg.outId }
        match callerTarget leg with
        | none => (s, [.reply txn ok])
        | some target =>
          match socketOf target with
          | none => (s, [.reply txn ok])
          | some a => (s, [.reply txn ok, .udp a (byeToCaller cfg leg f.branch target)])

/-- `response_tx.send(response)`: it is lost when the task has ended. -/
def enqueue (s : St) (txn : Nat) (r : Response) : St :=
  { s with chans := s.chans.update txn (fun c => if c.live then { c with queue := c.queue ++ [r] } else c) }

/-- cancel.rs 169-232, up to the 487: the 200 for the CANCEL, and the 487 into the channel. -/
def onCancel (cfg : Cfg) (s : St) (rq : Request) (i : Nat) (f : Fresh) : St × List Out :=
  let txn := s.next
  let s := { s with next := s.next + 1 }
  match SipUri.parse cfg.localUri with
  | none => (s, answer txn rq.headers 500 "Server Error".toList f.reply)
  | some _ =>
    match Uas.createResponse rq.headers 200 "OK".toList f.reply with
    | .panic => (s, [])
    | .done ok =>
      match byIncoming s i (callIdOf rq) with
      | none => (s, [.reply txn ok])
      | some leg =>
        ({ enqueue s leg.chan (terminated leg.caller) with cancels := s.cancels ++ [⟨callIdOf rq, false⟩] }, [.reply txn ok])

/-- cancel.rs 87-158 `forward_cancel_to_callee` and 234-250, the removal of the leg: the next part of a CANCEL. -/
def onCancelOn (s : St) (k i : Nat) : St × List Out :=
  match s.cancels[k]? with
  | none => (s, [])
  | some c =>
    if c.passed then
      let s := { s with cancels := s.cancels.eraseIdx k }
      match byIncoming s i c.callId with
      | none => (s, [])
      | some leg => ({ s with legs := s.legs.remove leg.outId }, [])
    else
      let s := { s with cancels := s.cancels.set k { c with passed := true } }
      match byIncoming s i c.callId with
      | none => (s, [])
      | some leg => (s, sendTcp (socketOf leg.callee) (bridgedCancel leg))

/-- main.rs 685-722: a response from the network goes to the channel of the call it names. -/
def onResponse (s : St) (r : Response) : St :=
  match r.headers.get "Call-ID".toList with
  | none => s
  | some cid =>
    match s.legs.get cid with
    | none => s
    | some leg => enqueue s leg.chan r

/-- invite.rs 469-524: one turn of the relay task. -/
def onRelay (cfg : Cfg) (s : St) (txn : Nat) : St × List Out :=
  match s.chans.get txn with
  | none => (s, [])
  | some c =>
    match c.live, c.queue with
    | true, r :: rest =>
      let go (live : Bool) : Tbl Nat Chan := s.chans.update txn (fun c => { c with queue := rest, live := live })
      match s.legs.get c.outId with
      | none => ({ s with chans := go false }, [])
      | some leg =>
        match transform cfg leg s.mgr r with
        | (.died, leg', m) => ({ s with chans := go false, legs := s.legs.update c.outId (fun _ => leg'), mgr := m }, [])
        | (.nothing, _, _) => ({ s with chans := go false, legs := s.legs.remove c.outId }, [])
        | (.response r', leg', m) =>
          let s := { s with legs := s.legs.update c.outId (fun _ => leg'), mgr := m }
          if 100 ≤ r'.code ∧ r'.code < 200 then ({ s with chans := go true }, [.reply txn r'])
          else if 200 ≤ r'.code ∧ r'.code < 300 then ({ s with chans := go false }, [.reply txn r'])
          else ({ s with chans := go false, legs := s.legs.remove c.outId }, [.reply txn r'])
    | _, _ => (s, [])

/-- main.rs 424-430: legs are kept for less than this many seconds. -/
def MAX_LEG_AGE : Nat := 300

/-- b2bua_state.rs 146-151 `cleanup_old`. -/
def onSweep (s : St) (now : Nat) : St := { s with legs := s.legs.filter (fun e => decide (now - e.2.born < MAX_LEG_AGE)) }

/-- One event. -/
def step (cfg : Cfg) (s : St) : Ev → St × List Out
  | .invite rq look f now i => onInvite cfg s rq look f now i
  | .ack rq i branch => (s, onAck s rq i branch)
  | .bye rq i f => onBye cfg s rq i f
  | .cancel rq i f => onCancel cfg s rq i f
  | .cancelOn k i => onCancelOn s k i
  | .response r => (onResponse s r, [])
  | .relay txn => onRelay cfg s txn
  | .sweep now => (onSweep s now, [])

/-- A history: the state after it, and what was put out. -/
def run (cfg : Cfg) : St → List Ev → St × List Out
  | s, [] => (s, [])
  | s, e :: es =>
    let (s, o) := step cfg s e
    let (s, os) := run cfg s es
    (s, o ++ os)

end Siphon.Bridge
