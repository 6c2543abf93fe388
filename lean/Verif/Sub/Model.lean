import Verif.Uas.Response
import Verif.Base.Table
/-!
# Subscriptions (C102 to C104)

Model of the subscriptions of `crates/sip-dialog/src/lib.rs` (1346-1740), of the functions of `crates/sip-uas/src/lib.rs` and
`crates/sip-uac/src/lib.rs` that make a subscription from messages and a NOTIFY from a subscription, and of the handlers
`bins/siphond/src/handlers/subscribe.rs` and `notify.rs`.  Random branches and tags are arguments.
-/
namespace Siphon.Sub
open Siphon.Dlg (headerTag contactUri cseqNumber addAll angle bareAddr cseqValue Ua)
open Siphon.Uas (pushU createResponse ensureToTag extractFromUri validReason)

/-- The largest `u64`. -/
def MAX_U64 : Nat := 18446744073709551615

/-- sip-dialog lib.rs 41 -/
def MAX_SUBSCRIPTIONS : Nat := 10000

/-- sip-dialog lib.rs 1347-1354 `SubscriptionState`. -/
inductive SState | active | pending | terminated
  deriving DecidableEq, Repr

/-- sip-dialog lib.rs 1357-1363 `as_str`. -/
def SState.asStr : SState → Str
  | .active => "active".toList
  | .pending => "pending".toList
  | .terminated => "terminated".toList

/-- sip-dialog lib.rs 1369-1374 `SubscriptionId`. -/
structure SubId where
  callId : Str
  fromTag : Str
  toTag : Str
  event : Str
  deriving DecidableEq, Repr

/-- sip-dialog lib.rs 1470-1477 `SubscriptionId::from_request_response`: `rq` are the headers of the request and `rs` those
of the response. -/
def SubId.fromRequestResponse (rq rs : Headers) : Run (Option SubId) :=
  match rq.get "Call-ID".toList with
  | none => .done none
  | some c =>
    match headerTag rq "From".toList with
    | .panic => .panic
    | .done none => .done none
    | .done (some f) =>
      match headerTag rs "To".toList with
      | .panic => .panic
      | .done none => .done none
      | .done (some t) =>
        match rq.get "Event".toList with
        | none => .done none
        | some e => .done (some ⟨c, f, t, e⟩)

/-- sip-dialog lib.rs 1460-1466 `SubscriptionId::from_request`: the same reading, all from one message. -/
def SubId.fromRequest (rq : Headers) : Run (Option SubId) := SubId.fromRequestResponse rq rq

/-- sip-dialog lib.rs 1482-1491 `Subscription`; `expires` in seconds. -/
structure Sub where
  id : SubId
  state : SState
  localUri : SipUri
  remoteUri : SipUri
  contact : SipUri
  expires : Nat
  localCSeq : Nat
  remoteCSeq : Nat
  deriving DecidableEq, Repr

/-- sip-dialog lib.rs 1194-1207 `validate_subscription_cseq` (with line 47: 2^31 - 1). -/
def validCSeq (n : Nat) : Bool := 1 ≤ n && n ≤ 2147483647

/-- sip-dialog lib.rs 1507-1513: the time of a subscription we serve, from the response or the request. -/
def notifierExpires (rq rs : Headers) : Option Nat :=
  match rs.get "Expires".toList with
  | some v => parseDec MAX_U64 v
  | none =>
    match rq.get "Expires".toList with
    | some v => parseDec MAX_U64 v
    | none => some 3600

/-- sip-dialog lib.rs 1541-1545: the time of a subscription we hold, from the response. -/
def subscriberExpires (rs : Headers) : Option Nat :=
  match rs.get "Expires".toList with
  | some v => parseDec MAX_U64 v
  | none => some 3600

/-- The part common to `new_notifier` and `new_subscriber`: identifier, Contact of the response, CSeq of the request. -/
def newSub (rq rs : Headers) (l r : SipUri) (expires : Option Nat) : Run (Option Sub) :=
  match SubId.fromRequestResponse rq rs with
  | .panic => .panic
  | .done none => .done none
  | .done (some id) =>
    match contactUri rs with
    | none => .done none
    | some contact =>
      match cseqNumber rq with
      | none => .done none
      | some n =>
        if !validCSeq n then .done none
        else
          match expires with
          | none => .done none
          | some e =>
            .done (some ⟨id, .active, l, r, contact, e, n, 0⟩)

/-- sip-dialog lib.rs 1495-1525 `Subscription::new_notifier`. -/
def newNotifier (rq rs : Headers) (l r : SipUri) : Run (Option Sub) := newSub rq rs l r (notifierExpires rq rs)

/-- sip-dialog lib.rs 1528-1557 `Subscription::new_subscriber`. -/
def newSubscriber (rq rs : Headers) (l r : SipUri) : Run (Option Sub) := newSub rq rs l r (subscriberExpires rs)

/-- sip-dialog lib.rs 1635-1638 `next_local_cseq`: `+= 1` on a `u32`, a panic where overflow is checked. -/
def Sub.nextLocalCSeq (s : Sub) : Run (Nat × Sub) :=
  if s.localCSeq + 1 ≤ 4294967295 then .done (s.localCSeq + 1, { s with localCSeq := s.localCSeq + 1 }) else .panic

/-! ## The manager -/

/-- sip-dialog lib.rs 1653-1658 `SubscriptionManager`. -/
abbrev SubMgr := Tbl SubId Sub

namespace SubMgr

/-- sip-dialog lib.rs 1673-1686 `insert`; `false` is the error.  The lock keeps other inserts away, so checking and
inserting are one step; a removal in between only makes room. -/
def insert (m : SubMgr) (s : Sub) : Bool × SubMgr :=
  if m.length ≥ MAX_SUBSCRIPTIONS then (false, m) else (true, Tbl.insert m s.id s)

/-- sip-dialog lib.rs 1689-1693 `get` -/
def get (m : SubMgr) (id : SubId) : Option Sub := Tbl.get m id

/-- sip-dialog lib.rs 1696-1698 `remove` -/
def remove (m : SubMgr) (id : SubId) : Option Sub × SubMgr := (Tbl.get m id, Tbl.remove m id)

/-- sip-dialog lib.rs 1701-1706 `all` -/
def all (m : SubMgr) : List Sub := m.map (·.2)

/-- sip-dialog lib.rs 1709-1715 `by_event` -/
def byEvent (m : SubMgr) (e : Str) : List Sub := (m.filter (fun p => decide (p.2.id.event = e))).map (·.2)

/-- sip-dialog lib.rs 1719-1724: the identifiers `cleanup_terminated` collects. -/
def terminated (m : SubMgr) : List SubId := (m.filter (fun p => decide (p.2.state = .terminated))).map (·.1)

/-- sip-dialog lib.rs 1727-1729: the collected identifiers are removed one by one. -/
def removeAll (m : SubMgr) (ids : List SubId) : SubMgr := ids.foldl (fun m id => Tbl.remove m id) m

/-- sip-dialog lib.rs 1718-1731 `cleanup_terminated`, without calls of other threads in between. -/
def cleanup (m : SubMgr) : Nat × SubMgr := (m.terminated.length, m.removeAll m.terminated)

end SubMgr

/-! ## The server: SUBSCRIBE and NOTIFY with a status line -/

/-- The fields of `UserAgentServer` used here. -/
structure Srv where
  localUri : SipUri
  contactUri : SipUri
  subs : SubMgr

/-- sip-uas lib.rs 967-973: the value of the Expires header, a `u32`. -/
def grantedExpires (rq : Headers) : Option Nat → Nat
  | some e => e
  | none =>
    match rq.get "Expires".toList with
    | none => 3600
    | some v =>
      match parseDec 4294967295 v with
      | some n => n
      | none => 3600

/-- sip-uas lib.rs 938-1005 `accept_subscribe`; `none` is an error.  `authorized` is false when an authenticator is configured
and does not accept the request; `tag` is the generated tag. -/
def acceptSubscribe (srv : Srv) (authorized : Bool) (rq : Request) (expires : Option Nat) (tag : Str) :
    Run (Option (Response × Sub) × Srv) :=
  if rq.method.asStr ≠ "SUBSCRIBE".toList then .done (none, srv)
  else if !authorized then .done (none, srv)
  else do
    let r ← createResponse rq.headers 200 "OK".toList tag
    let r ← pushU r "Contact" (angle srv.contactUri)
    let r ← pushU r "Expires" (showNat (grantedExpires rq.headers expires))
    let r ← ensureToTag r tag
    match extractFromUri rq.headers with
    | none => .done (none, srv)
    | some remote =>
      match newNotifier rq.headers r.headers srv.localUri remote with
      | .panic => .panic
      | .done none => .done (none, srv)
      | .done (some s) => .done (some (r, s), { srv with subs := (srv.subs.insert s).2 })

/-- sip-uas lib.rs 1026-1049: the Via value of a NOTIFY. -/
def viaOf (contact : SipUri) (branch : Str) : Str :=
  "SIP/2.0/".toList ++
    (match contact.params.get "transport".toList with
     | some (some t) => upper t
     | _ => "UDP".toList) ++
    ' ' :: contact.host ++
    (match contact.port with
     | some p => ':' :: showNat p
     | none => []) ++
    ";branch=".toList ++ branch

/-- sip-uas lib.rs 1098-1104: the Subscription-State value for a status code. -/
def stateFor (code : Nat) : Str :=
  if 200 ≤ code ∧ code < 300 then "terminated;reason=noresource".toList
  else if 300 ≤ code then "terminated;reason=rejected".toList
  else "active".toList

/-- sip-uas lib.rs 1117: the body of a NOTIFY, one status line. -/
def sipfrag (code : Nat) (reason : Str) : Str :=
  "SIP/2.0 ".toList ++ showNat code ++ ' ' :: reason ++ ['\r', '\n']

/-- sip-uas lib.rs 1016-1137 `create_notify_sipfrag`; `none` is the error for the reason phrase. -/
def createNotifySipfrag (localUri contact : SipUri) (branch : Str) (s : Sub) (code : Nat) (reason : Str) :
    Run (Option (Request × Sub)) :=
  if !validReason reason then .done none
  else do
    let (n, s') ← s.nextLocalCSeq
    let hs ← addAll [("Via", viaOf contact branch), ("From", bareAddr localUri s.id.toTag),
      ("To", bareAddr s.remoteUri s.id.fromTag), ("Call-ID", s.id.callId), ("CSeq", cseqValue n .notify),
      ("Contact", angle contact), ("Event", s.id.event), ("Subscription-State", stateFor code),
      ("Content-Type", "message/sipfrag;version=2.0".toList), ("Content-Length", showNat (utf8Len (sipfrag code reason))),
      ("Max-Forwards", "70".toList)] .empty
    match Request.new .notify s.contact.raw hs (utf8 (sipfrag code reason)) with
    | .error _ => .panic
    | .ok r => .done (some (r, s'))

/-! ## The client: SUBSCRIBE and NOTIFY -/

/-- sip-uac lib.rs 3534-3552 `extract_to_uri`. -/
def extractToUri (rs : Headers) : Option SipUri :=
  match rs.get "To".toList with
  | none => none
  | some v =>
    match splitOnce '<' v with
    | some (_, rest) =>
      match splitOnce '>' rest with
      | some (u, _) => SipUri.parse (trim u)
      | none => none
    | none =>
      match splitOnce ';' v with
      | some (u, _) => SipUri.parse (trim u)
      | none => SipUri.parse (trim v)

/-- sip-uac lib.rs 2427-2449 `process_subscribe_response`. -/
def processSubscribeResponse (ua : Ua) (m : SubMgr) (rq rs : Headers) : Run (Option Sub × SubMgr) :=
  match extractToUri rs with
  | none => .done (none, m)
  | some remote =>
    match newSubscriber rq rs ua.localUri remote with
    | .panic => .panic
    | .done none => .done (none, m)
    | .done (some s) => .done (some s, (m.insert s).2)

/-- sip-uac lib.rs 2541-2560: the headers for the body. -/
def notifyBody : Option Str → List (String × Str)
  | some b => [("Content-Type", "text/plain".toList), ("Content-Length", showNat (utf8Len b))]
  | none => [("Content-Length", "0".toList)]

/-- sip-uac lib.rs 2460-2569 `create_notify`.  The subscription is not changed. -/
def createNotify (ua : Ua) (branch : Str) (s : Sub) (state : SState) (body : Option Str) : Run Request := do
  let (n, _) ← s.nextLocalCSeq
  let hs ← addAll ([("Via", "SIP/2.0/UDP placeholder;branch=".toList ++ branch), ("From", bareAddr ua.localUri s.id.toTag),
    ("To", bareAddr s.remoteUri s.id.fromTag), ("Call-ID", s.id.callId), ("CSeq", cseqValue n .notify),
    ("Contact", angle ua.contactUri), ("Event", s.id.event), ("Subscription-State", state.asStr),
    ("Max-Forwards", "70".toList), ("User-Agent", ua.agent)] ++ notifyBody body) .empty
  match Request.new .notify s.contact.raw hs (match body with | some b => utf8 b | none => []) with
  | .error _ => .panic
  | .ok r => .done r

/-! ## The daemon -/

/-- notify.rs 32-37 `extract_tag` (refer.rs 245-250 is the same): the text after the first piece that starts with `tag=`. -/
def plainTag (v : Str) : Option Str := (splitChar ';' v).findSome? (fun p => stripPrefix "tag=".toList (trim p))

/-- notify.rs 39-43 and subscribe.rs 86-91 `extract_event_package`. -/
def eventPackage (hs : Headers) : Option Str :=
  match hs.get "Event".toList with
  | none => none
  | some v =>
    match splitChar ';' v with
    | [] => none
    | p :: _ => some (trim p)

/-- notify.rs 49-78 `find_subscription`. -/
def findSubscription (m : SubMgr) (hs : Headers) : Option Sub :=
  match hs.get "Call-ID".toList, hs.get "From".toList, hs.get "To".toList with
  | some c, some f, some t =>
    match plainTag f, plainTag t, eventPackage hs with
    | some ft, some tt, some e =>
      match m.get ⟨c, tt, ft, e⟩ with
      | some s => some s
      | none => m.get ⟨c, ft, tt, e⟩
    | _, _, _ => none
  | _, _, _ => none

/-- notify.rs 83-107: the code of the answer to a NOTIFY. -/
def answerNotify (m : SubMgr) (hs : Headers) : Nat :=
  match findSubscription m hs with
  | none => 481
  | some _ => 200

/-- subscribe.rs 157-200 `build_notify_body`: content type and body. -/
def initialBody (s : Sub) : Option (Str × Str) :=
  if s.id.event = "presence".toList then
    some ("application/pidf+xml".toList,
      ("<?xml version=\"1.0\" encoding=\"UTF-8\"?>\r\n<presence xmlns=\"urn:ietf:params:xml:ns:pidf\" entity=\"".toList ++
        s.remoteUri.raw ++
        "\">\r\n<tuple id=\"t1\">\r\n<status><basic>open</basic></status>\r\n</tuple>\r\n</presence>\r\n".toList))
  else if s.id.event = "message-summary".toList then
    some ("application/simple-message-summary".toList, "Messages-Waiting: no\r\nVoice-Message: 0/0 (0/0)\r\n".toList)
  else if s.id.event = "dialog".toList ∨ s.id.event = "dialog-info".toList then
    some ("application/dialog-info+xml".toList,
      ("<?xml version=\"1.0\" encoding=\"UTF-8\"?>\r\n<dialog-info xmlns=\"urn:ietf:params:xml:ns:dialog-info\" version=\"1\" state=\"full\" entity=\"".toList ++
        s.remoteUri.raw ++ "\">\r\n<dialog id=\"d1\" call-id=\"".toList ++ s.id.callId ++
        "\" direction=\"recipient\">\r\n<state>confirmed</state>\r\n</dialog>\r\n</dialog-info>\r\n".toList))
  else none

/-- `let _ = headers_mut().push(name, value)`: an error leaves the headers as they are. -/
def pushQuiet (hs : Headers) (n : String) (v : Str) : Headers :=
  match hs.push n.toList v with
  | .ok hs' => hs'
  | .error _ => hs

/-- subscribe.rs 103-155 `send_initial_notify`: the NOTIFY handed to the transaction manager. -/
def initialNotify (ua : Ua) (branch : Str) (s : Sub) : Run Request :=
  match initialBody s with
  | none => createNotify ua branch s .active none
  | some (ct, b) => do
    let r ← createNotify ua branch s .active (some b)
    .done { r with headers := pushQuiet (pushQuiet r.headers "Content-Type" ct) "Content-Length" (showNat (utf8Len b)) }

/-- What the daemon does with a SUBSCRIBE: a refusal with a code, or an answer and a NOTIFY. -/
inductive Handled
  | refused (code : Nat)
  | accepted (answer : Response) (sub : Sub) (notify : Request)
  deriving DecidableEq, Repr

/-- subscribe.rs 93-97 `extract_expiry` with the default of 240. -/
def requestedExpiry (hs : Headers) : Nat :=
  match hs.get "Expires".toList with
  | none => 3600
  | some v =>
    match parseDec 4294967295 v with
    | some n => n
    | none => 3600

/-- subscribe.rs 205-325 `handle`, with subscriptions enabled and accepted, and a valid `local_uri` in the configuration.  The
server it makes has a manager of its own, so only `m`, the daemon's, is followed.  The NOTIFY is made before the entry for an
expiry of 0 is removed. -/
def handleSubscribe (localUri : SipUri) (agent : Str) (m : SubMgr) (rq : Request) (tag branch : Str) : Run (Handled × SubMgr) :=
  match eventPackage rq.headers with
  | none => .done (.refused 400, m)
  | some _ =>
    let expiry := requestedExpiry rq.headers
    match acceptSubscribe ⟨localUri, localUri, []⟩ true rq (some expiry) tag with
    | .panic => .panic
    | .done (none, _) => .done (.refused 603, m)
    | .done (some (r, s), _) => do
      let s := if expiry = 0 then { s with state := .terminated } else s
      let m := (m.insert s).2
      let n ← initialNotify ⟨localUri, localUri, none, agent⟩ branch s
      let m := if expiry = 0 then (m.remove s.id).2 else m
      .done (.accepted r s n, m)

end Siphon.Sub
