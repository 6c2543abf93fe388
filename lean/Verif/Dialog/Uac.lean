import Verif.Dialog.Model
/-!
# Requests inside a dialog

Model of the request builders of `crates/sip-uac/src/lib.rs` that take a dialog, and of the routing functions
of `crates/sip-uac/src/integrated.rs` (426-571).  Every builder ends in `.push(..).unwrap()` calls: a header
that cannot be pushed is a panic.  `branch` is the random part of the Via, `agent` the configured User-Agent.
-/
namespace Siphon.Dlg

/-- The fields of `UserAgentClient` used here (sip-uac lib.rs 206-262). -/
structure Ua where
  localUri : SipUri
  contactUri : SipUri
  display : Option Str
  agent : Str
  deriving DecidableEq, Repr

/-- A sequence of `headers.push(name, value).unwrap()`. -/
def addAll : List (String × Str) → Headers → Run Headers
  | [], hs => .done hs
  | (n, v) :: rest, hs =>
    match hs.push n.toList v with
    | .error _ => .panic
    | .ok hs => addAll rest hs

/-- `format!("<{}>;tag={}", uri, tag)`. -/
def bareAddr (u : SipUri) (tag : Str) : Str := '<' :: u.raw ++ ">;tag=".toList ++ tag

/-- The From value of re-INVITE, UPDATE and PRACK (lib.rs 1399-1413, 1511-1525, 2210-2224): the display name is
put between quotes as it is. -/
def ownAddr (ua : Ua) (tag : Str) : Str :=
  match ua.display with
  | some n => '"' :: n ++ "\" ".toList ++ bareAddr ua.localUri tag
  | none => bareAddr ua.localUri tag

/-- `format!("<{}>", uri)`. -/
def angle (u : SipUri) : Str := '<' :: u.raw ++ ">".toList

/-- The requests an application can build inside a dialog.  `refer` has the finished Refer-To value and whether
Referred-By is added (lib.rs 2792-2875 and 2890-2997); `prack` the finished RAck value. -/
inductive Kind
  | bye
  | reinvite (sdp : Option Str)
  | update (sdp : Option Str)
  | info (ctype body : Str)
  | prack (rack : Str)
  | refer (to : Str) (referredBy : Bool)

/-- Their methods. -/
def Kind.method : Kind → Method
  | .bye => .bye
  | .reinvite _ => .invite
  | .update _ => .update
  | .info _ _ => .info
  | .prack _ => .prack
  | .refer _ _ => .refer

/-- Their From values: the BYE names the dialog's local URI, the others the client's own. -/
def Kind.from (ua : Ua) (d : Dialog) : Kind → Str
  | .bye => bareAddr d.localUri d.id.localTag
  | .reinvite _ | .update _ | .prack _ => ownAddr ua d.id.localTag
  | .info _ _ | .refer _ _ => bareAddr ua.localUri d.id.localTag

/-- The headers for a body: lib.rs 1461-1485, 1573-1597. -/
def sdpHeaders : Option Str → List (String × Str)
  | some s => [("Content-Type", "application/sdp".toList), ("Content-Length", showNat (utf8Len s))]
  | none => [("Content-Length", "0".toList)]

/-- The headers after CSeq, in order. -/
def Kind.tail (ua : Ua) : Kind → List (String × Str)
  | .bye => [("Max-Forwards", "70".toList), ("User-Agent", ua.agent), ("Content-Length", "0".toList)]
  | .reinvite b | .update b =>
    [("Contact", angle ua.contactUri), ("Max-Forwards", "70".toList), ("User-Agent", ua.agent)] ++ sdpHeaders b
  | .info ct b =>
    [("Max-Forwards", "70".toList), ("Content-Type", ct), ("User-Agent", ua.agent), ("Content-Length", showNat (utf8Len b))]
  | .prack r =>
    [("RAck", r), ("Max-Forwards", "70".toList), ("Contact", angle ua.contactUri), ("User-Agent", ua.agent),
      ("Content-Length", "0".toList)]
  | .refer t b =>
    [("Contact", angle ua.contactUri), ("Refer-To", t)] ++ (if b then [("Referred-By", angle ua.localUri)] else []) ++
      [("Max-Forwards", "70".toList), ("User-Agent", ua.agent), ("Content-Length", "0".toList)]

/-- Their bodies. -/
def Kind.body : Kind → Bytes
  | .reinvite (some s) | .update (some s) => utf8 s
  | .info _ b => utf8 b
  | _ => []

/-- The value of a CSeq header. -/
def cseqValue (n : Nat) (m : Method) : Str := showNat n ++ ' ' :: m.asStr

/-- `create_bye` 1306-1377, `create_reinvite` 1387-1489, `create_update` 1499-1601, `create_info` 1789-1873
(without its checks of the lengths of the content type and the body, which end in an error),
`build_prack_request` 2198-2289, `create_refer` 2792-2875, `create_refer_with_replaces` 2890-2997.  The CSeq
number is that of a clone: the dialog itself is not changed. -/
def create (ua : Ua) (branch : Str) (d : Dialog) (k : Kind) : Run Request :=
  match addAll ([("Via", "SIP/2.0/UDP placeholder;branch=".toList ++ branch), ("From", k.from ua d),
      ("To", bareAddr d.remoteUri d.id.remoteTag), ("Call-ID", d.id.callId),
      ("CSeq", cseqValue d.nextLocalCSeq.1 k.method)] ++ k.tail ua) .empty with
  | .panic => .panic
  | .done hs =>
    match Request.new k.method d.remoteTarget.raw hs k.body with
    | .error _ => .panic
    | .ok r => .done r

/-- `headers.get(name)` copied under the same name when present. -/
def copyHeader (src : Headers) (n : String) : List (String × Str) :=
  match src.get n.toList with
  | some v => [(n, v)]
  | none => []

/-- The CSeq of the ACK (lib.rs 1245-1251): the text before the first space. -/
def ackCSeq (src : Headers) : List (String × Str) :=
  match src.get "CSeq".toList with
  | none => []
  | some v =>
    match splitOnce ' ' v with
    | none => []
    | some (n, _) => [("CSeq", n ++ " ACK".toList)]

/-- lib.rs 1211-1297 `create_ack`. -/
def createAck (ua : Ua) (branch : Str) (invite : Request) (resp : Response) (sdp : Option Str) : Run Request :=
  match addAll ([("Via", "SIP/2.0/UDP placeholder;branch=".toList ++ branch)] ++ copyHeader invite.headers "From" ++
      copyHeader resp.headers "To" ++ copyHeader invite.headers "Call-ID" ++ ackCSeq invite.headers ++
      [("Max-Forwards", "70".toList), ("User-Agent", ua.agent)] ++ sdpHeaders sdp) .empty with
  | .panic => .panic
  | .done hs =>
    match Request.new .ack invite.uri hs (match sdp with | some s => utf8 s | none => []) with
    | .error _ => .panic
    | .ok r => .done r

/-- The RAck value of `create_prack` (lib.rs 2149-2168) for an INVITE and a provisional response; `none` is an
error. -/
def rackFor (invite : Headers) (prov : Headers) : Option Str :=
  match invite.get "CSeq".toList with
  | none => none
  | some c =>
    match splitWhitespace c with
    | n :: m :: _ =>
      match parseDec MAX_U32 n with
      | none => none
      | some cs =>
        match prov.get "RSeq".toList with
        | none => none
        | some r =>
          match parseDec MAX_U32 r with
          | none => none
          | some rs => some (showNat rs ++ ' ' :: showNat cs ++ ' ' :: m)
    | _ => none

/-- A URI has the `lr` parameter. -/
def isLoose (u : SipUri) : Bool := u.params.has "lr".toList

/-- The Request-URI, the Route values and the next hop of a request in the dialog: integrated.rs 441-493 and
502-546. -/
def routing (d : Dialog) : SipUri × List SipUri × SipUri :=
  match d.routeSet with
  | [] => (d.remoteTarget, [], d.remoteTarget)
  | first :: rest =>
    if isLoose first then (d.remoteTarget, first :: rest, first)
    else (first, rest ++ [d.remoteTarget], first)

/-- The request with the Request-URI and Route headers of the dialog. -/
def withRouting (d : Dialog) (m : Method) (hs : Headers) (body : Bytes) : Run Request :=
  match addAll ((routing d).2.1.map (fun u => ("Route", angle u))) (hs.remove "Route".toList).1 with
  | .panic => .panic
  | .done hs =>
    match Request.new m (routing d).1.raw hs body with
    | .error _ => .panic
    | .ok r => .done r

/-- integrated.rs 426-494 `prepare_in_dialog_request`: the dialog, the request and the URI to resolve. -/
def prepare (d : Dialog) (r : Request) : Run (Dialog × Request × SipUri) :=
  match addAll [("CSeq", cseqValue d.nextLocalCSeq.1 r.method)] (r.headers.remove "CSeq".toList).1 with
  | .panic => .panic
  | .done hs =>
    match withRouting d r.method hs r.body with
    | .panic => .panic
    | .done r' => .done (d.nextLocalCSeq.2, r', (routing d).2.2)

/-- integrated.rs 496-547 `apply_route_set_to_request`. -/
def applyRouteSet (d : Dialog) (r : Request) : Run Request := withRouting d r.method r.headers r.body

/-- integrated.rs 549-571 `apply_in_dialog_response`: the dialog, and whether the call is an error.  The copy put
into the dialog manager is the same dialog. -/
def applyResponse (d : Dialog) (r : Response) : Dialog × Bool :=
  if Dialog.is2xx r.code then (d.updateFromResponse r, true)
  else if r.code = 408 ∨ r.code = 481 then (d.terminate, false)
  else (d, true)

end Siphon.Dlg
