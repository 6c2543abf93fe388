import Verif.Base.Slice
import Verif.Base.Table
import Verif.Core.Msg
import Verif.Core.Uri
import Verif.Core.SessionTimer
/-!
# Dialogs

Model of `crates/sip-dialog/src/lib.rs`, the part about dialogs (33-1357).  Lookups use
`sip_parse::header` (sip-parse lib.rs 324-329), which for the full header names used here is
`Headers::get`.  `Run.panic` is a Rust panic: `extract_tag` slices a piece of the From or To header at
byte 4.  Durations are in seconds; all those that occur are whole seconds.  The insert lock of the manager
makes `insert` one atomic step; the other operations are single map operations.  Metrics are left out.
-/
namespace Siphon.Dlg

/-- lib.rs 35 -/
def MAX_URI_LENGTH : Nat := 512
/-- lib.rs 38 -/
def MAX_ROUTE_SET_SIZE : Nat := 50
/-- lib.rs 39 -/
def MAX_EARLY_DIALOGS_PER_CALL_ID : Nat := 100
/-- lib.rs 40 -/
def MAX_CONFIRMED_DIALOGS : Nat := 10000
/-- lib.rs 44 -/
def MAX_CSEQ_VALUE : Nat := 2147483647
/-- lib.rs 45 -/
def MAX_CSEQ_JUMP : Nat := 1000
/-- lib.rs 48 -/
def MIN_SESSION_EXPIRES : Nat := 90
/-- lib.rs 49 -/
def MAX_SESSION_EXPIRES : Nat := 86400
/-- lib.rs 33 -/
def MAX_CALL_ID_LENGTH : Nat := 256
/-- lib.rs 34 -/
def MAX_TAG_LENGTH : Nat := 128

/-- lib.rs 62-69 `DialogStateType`. -/
inductive DState | early | confirmed | terminated
  deriving DecidableEq, Repr

/-- lib.rs 73-77 `DialogId`. -/
structure DialogId where
  callId : Str
  localTag : Str
  remoteTag : Str
  deriving DecidableEq, Repr

/-- lib.rs 850-912 `DialogError` (the ones that occur; payloads dropped). -/
inductive DErr
  | invalidCSeq | missingHeader | cseqTooLarge | cseqJumpTooLarge | cseqZero | uriTooLong | routeSetTooLarge
  | tooManyDialogs | seTooSmall | seTooLarge | badCallId | badTag
  deriving DecidableEq, Repr

/-- lib.rs 1010-1024 `validate_call_id`. -/
def validCallId (s : Str) : Bool := !s.isEmpty && utf8Len s ≤ MAX_CALL_ID_LENGTH && !s.any isControl

/-- lib.rs 1027-1042 `validate_tag`. -/
def validTag (s : Str) : Bool := !s.isEmpty && utf8Len s ≤ MAX_TAG_LENGTH && !s.any isControl

/-- lib.rs 85-105 `DialogId::new`. -/
def DialogId.new (callId localTag remoteTag : Str) : Except DErr DialogId :=
  if !validCallId callId then .error .badCallId
  else if !validTag localTag then .error .badTag
  else if !validTag remoteTag then .error .badTag
  else .ok { callId := callId, localTag := localTag, remoteTag := remoteTag }

/-- lib.rs 1215-1224 `extract_tag`, on the pieces between semicolons. -/
def tagIn : List Str → Run (Option Str)
  | [] => .done none
  | p :: ps =>
    if utf8Len (trim p) ≥ 4 then
      match splitAtByte 4 (trim p) with
      | none => .panic
      | some (a, b) => if eqIgnoreCase a "tag=".toList then .done (some b) else tagIn ps
    else tagIn ps

/-- lib.rs 1215-1224 `extract_tag`. -/
def extractTag (v : Str) : Run (Option Str) := tagIn (splitChar ';' v)

/-- The tag of a header: `extract_tag(header(hs, name)?)?`. -/
def headerTag (hs : Headers) (name : Str) : Run (Option Str) :=
  match hs.get name with
  | none => .done none
  | some v => extractTag v

/-- lib.rs 158-163 `DialogId::from_request`: (Call-ID, From tag, To tag). -/
def DialogId.fromRequest (hs : Headers) : Run (Option DialogId) :=
  match hs.get "Call-ID".toList with
  | none => .done none
  | some c =>
    match headerTag hs "From".toList with
    | .panic => .panic
    | .done none => .done none
    | .done (some f) =>
      match headerTag hs "To".toList with
      | .panic => .panic
      | .done none => .done none
      | .done (some t) => .done (some { callId := c, localTag := f, remoteTag := t })

/-- lib.rs 167-172 `DialogId::from_response_uac`: the same three lookups. -/
def DialogId.fromResponseUac (hs : Headers) : Run (Option DialogId) := DialogId.fromRequest hs

/-- lib.rs 176-181 `DialogId::from_response_uas`: the To tag is read first and is the local one. -/
def DialogId.fromResponseUas (hs : Headers) : Run (Option DialogId) :=
  match hs.get "Call-ID".toList with
  | none => .done none
  | some c =>
    match headerTag hs "To".toList with
    | .panic => .panic
    | .done none => .done none
    | .done (some t) =>
      match headerTag hs "From".toList with
      | .panic => .panic
      | .done none => .done none
      | .done (some f) => .done (some { callId := c, localTag := t, remoteTag := f })

/-- `Option<&str>::map(|u| u.len()).unwrap_or(0)`. -/
def optLen : Option Str → Nat
  | none => 0
  | some u => utf8Len u

/-- lib.rs 1045-1060 `validate_uri`. -/
def validUri (u : SipUri) : Bool :=
  optLen u.user + utf8Len u.host + (if u.port.isSome then 6 else 0) + 10 ≤ MAX_URI_LENGTH

/-- lib.rs 1063-1074 `validate_cseq`. -/
def validateCSeq (n : Nat) : Except DErr Unit :=
  if n = 0 then .error .cseqZero
  else if n > MAX_CSEQ_VALUE then .error .cseqTooLarge
  else .ok ()

/-- lib.rs 1077-1090 `validate_cseq_increment`. -/
def validateIncrement (prev new : Nat) : Except DErr Unit :=
  if new ≤ prev then .error .invalidCSeq
  else if new - prev > MAX_CSEQ_JUMP then .error .cseqJumpTooLarge
  else .ok ()

/-- lib.rs 1093-1108 `validate_session_expires`: the seconds are first cut to 32 bits. -/
def validateSE (secs : Nat) : Except DErr Unit :=
  let s := secs % 4294967296
  if s < MIN_SESSION_EXPIRES then .error .seTooSmall
  else if s > MAX_SESSION_EXPIRES then .error .seTooLarge
  else .ok ()

/-- lib.rs 1111-1122 `validate_route_set`. -/
def validRouteSet (l : List SipUri) : Bool := l.length ≤ MAX_ROUTE_SET_SIZE && l.all validUri

/-- lib.rs 1293-1304 `parse_uri_from_header`. -/
def parseUriFromHeader (raw : Str) : Option SipUri :=
  match splitOnce '<' (trim raw) with
  | some (_, rest) =>
    match splitOnce '>' rest with
    | none => none
    | some (inside, _) => SipUri.parse (trim inside)
  | none =>
    match splitChar ';' (trim raw) with
    | [] => none
    | p :: _ => SipUri.parse (trim p)

/-- lib.rs 1307-1341 `split_header_values`: one pass, `cur` is the current part (reversed). -/
def splitValuesGo : Str → Bool → Nat → Str → List Str
  | [], _, _, cur => if (trim cur.reverse).isEmpty then [] else [trim cur.reverse]
  | ch :: t, q, depth, cur =>
    if ch = '"' then splitValuesGo t (!q) depth (ch :: cur)
    else if ch = '<' then splitValuesGo t q (depth + 1) (ch :: cur)
    else if ch = '>' then splitValuesGo t q (depth - 1) (ch :: cur)
    else if ch = ',' && !q && depth == 0 then
      if (trim cur.reverse).isEmpty then splitValuesGo t q depth []
      else trim cur.reverse :: splitValuesGo t q depth []
    else splitValuesGo t q depth (ch :: cur)

/-- lib.rs 1307-1341 `split_header_values`. -/
def splitValues (raw : Str) : List Str := splitValuesGo raw false 0 []

/-- lib.rs 1240-1256: the loop over the values; `acc` are the routes so far. -/
def collectRoutes : List Str → List SipUri → Except DErr (List SipUri)
  | [], acc => .ok acc
  | v :: vs, acc =>
    if acc.length ≥ MAX_ROUTE_SET_SIZE then .error .routeSetTooLarge
    else
      match parseUriFromHeader v with
      | none => collectRoutes vs acc
      | some u => if validUri u then collectRoutes vs (acc ++ [u]) else .error .uriTooLong

/-- lib.rs 1237-1262 `build_route_set`. -/
def buildRouteSet (hs : Headers) (reverse : Bool) : Except DErr (List SipUri) :=
  match collectRoutes ((hs.getAll "Record-Route".toList).flatMap splitValues) [] with
  | .error e => .error e
  | .ok l => .ok (if reverse then l.reverse else l)

/-- lib.rs 1265-1267 `extract_contact_uri`. -/
def contactUri (hs : Headers) : Option SipUri :=
  match hs.get "Contact".toList with
  | none => none
  | some v => parseUriFromHeader v

/-- lib.rs 1270-1276 `parse_cseq_number`. -/
def cseqNumber (hs : Headers) : Option Nat :=
  match hs.get "CSeq".toList with
  | none => none
  | some v =>
    match splitWhitespace v with
    | [] => none
    | w :: _ => parseDec MAX_U32 w

/-- lib.rs 1279-1290 `extract_session_timer`: both parts, or nothing. -/
def sessionTimer (hs : Headers) : Option SessionExpires :=
  match hs.get "Session-Expires".toList with
  | none => none
  | some v => SessionExpires.parse v

/-- lib.rs 262-303 `Dialog`. -/
structure Dialog where
  id : DialogId
  state : DState
  remoteTarget : SipUri
  routeSet : List SipUri
  localCSeq : Nat
  remoteCSeq : Nat
  lastAck : Option Nat
  localUri : SipUri
  remoteUri : SipUri
  secure : Bool
  sessionExpires : Option Nat
  refresher : Option Role
  isUac : Bool
  deriving DecidableEq, Repr

/-- lib.rs 317-321 and 378-382: the state a response code gives a new dialog. -/
def stateOf (code : Nat) : Option DState :=
  if 100 ≤ code ∧ code ≤ 199 then some .early
  else if 200 ≤ code ∧ code ≤ 299 then some .confirmed
  else none

/-- lib.rs 324-366 and 385-429: the part shared by `new_uac` and `new_uas` after the identifier.  `target` is
the remote target, `routes` the route set, `cseq` the CSeq number of the request. -/
def assemble (id : DialogId) (st : DState) (target : SipUri) (routes : Except DErr (List SipUri))
    (cseq : Option Nat) (timer : Option SessionExpires) (localUri remoteUri : SipUri) (isUac : Bool) :
    Option Dialog :=
  if !validUri localUri || !validUri remoteUri || !validUri target then none
  else
    match routes with
    | .error _ => none
    | .ok rs =>
      if !validRouteSet rs then none
      else
        match cseq with
        | none => none
        | some n =>
          match validateCSeq n with
          | .error _ => none
          | .ok () =>
            match timer with
            | some se =>
              match validateSE se.delta with
              | .error _ => none
              | .ok () =>
                some (Dialog.mk id st target rs (if isUac then n else 0) (if isUac then 0 else n) none localUri
                  remoteUri (localUri.sips || remoteUri.sips) (some se.delta) se.refresher isUac)
            | none =>
              some (Dialog.mk id st target rs (if isUac then n else 0) (if isUac then 0 else n) none localUri
                remoteUri (localUri.sips || remoteUri.sips) none none isUac)

/-- The remote target: the Contact, or else the remote URI (lib.rs 324-325, 385-386). -/
def targetOr (c : Option SipUri) (remoteUri : SipUri) : SipUri :=
  match c with
  | some u => u
  | none => remoteUri

/-- lib.rs 307-366 `Dialog::new_uac`. -/
def Dialog.newUac (req : Request) (resp : Response) (localUri remoteUri : SipUri) : Run (Option Dialog) :=
  match DialogId.fromResponseUac resp.headers with
  | .panic => .panic
  | .done none => .done none
  | .done (some id) =>
    match stateOf resp.code with
    | none => .done none
    | some st =>
      .done (assemble id st (targetOr (contactUri resp.headers) remoteUri) (buildRouteSet resp.headers true)
        (cseqNumber req.headers) (sessionTimer resp.headers) localUri remoteUri true)

/-- lib.rs 369-429 `Dialog::new_uas`. -/
def Dialog.newUas (req : Request) (resp : Response) (localUri remoteUri : SipUri) : Run (Option Dialog) :=
  match DialogId.fromResponseUas resp.headers with
  | .panic => .panic
  | .done none => .done none
  | .done (some id) =>
    match stateOf resp.code with
    | none => .done none
    | some st =>
      .done (assemble id st (targetOr (contactUri req.headers) remoteUri) (buildRouteSet req.headers false)
        (cseqNumber req.headers) (sessionTimer resp.headers) localUri remoteUri false)

namespace Dialog

/-- lib.rs 543-547 `set_session_expires`. -/
def setSessionExpires (d : Dialog) (secs : Nat) : Except DErr Dialog :=
  match validateSE secs with
  | .error e => .error e
  | .ok () => .ok { d with sessionExpires := some secs }

/-- lib.rs 552-556 `confirm`. -/
def confirm (d : Dialog) : Dialog := if d.state = .early then { d with state := .confirmed } else d

/-- lib.rs 559-561 `terminate`. -/
def terminate (d : Dialog) : Dialog := { d with state := .terminated }

/-- lib.rs 565-568 `next_local_cseq`: the number and the dialog.  The addition saturates: at `MAX_U32` the number
stays. -/
def nextLocalCSeq (d : Dialog) : Nat × Dialog :=
  let n := if d.localCSeq < MAX_U32 then d.localCSeq + 1 else d.localCSeq
  (n, { d with localCSeq := n })

/-- A 2xx code (lib.rs 604, 620). -/
def is2xx (code : Nat) : Bool := 200 ≤ code && code < 300

/-- lib.rs 585-588. -/
def updTarget (d : Dialog) (hs : Headers) : Dialog :=
  match contactUri hs with
  | some u => { d with remoteTarget := u }
  | none => d

/-- lib.rs 603-610. -/
def updRoutes (d : Dialog) (r : Response) : Dialog :=
  if d.state = .early ∧ is2xx r.code = true then
    match buildRouteSet r.headers true with
    | .error _ => d
    | .ok l => if l.isEmpty then d else { d with routeSet := l }
  else d

/-- lib.rs 613-617. -/
def updTimer (d : Dialog) (hs : Headers) : Dialog :=
  match sessionTimer hs with
  | some se => { d with sessionExpires := some se.delta, refresher := se.refresher }
  | none => d

/-- lib.rs 584-623 `update_from_response`. -/
def updateFromResponse (d : Dialog) (r : Response) : Dialog :=
  let d := updTimer (updRoutes (updTarget d r.headers) r) r.headers
  if is2xx r.code then d.confirm else d

/-- lib.rs 642-674 `update_from_request`: the dialog is unchanged on an error. -/
def updateFromRequest (d : Dialog) (r : Request) : Except DErr Unit × Dialog :=
  match cseqNumber r.headers with
  | none => (.error .missingHeader, d)
  | some n =>
    if n = 0 then (.error .invalidCSeq, d)
    else if r.method.asStr = "ACK".toList then
      if n ≠ d.remoteCSeq ∨ d.remoteCSeq = 0 then (.error .invalidCSeq, d)
      else (.ok (), updTarget { d with lastAck := some n } r.headers)
    else
      match validateCSeq n with
      | .error e => (.error e, d)
      | .ok () =>
        if d.remoteCSeq > 0 then
          match validateIncrement d.remoteCSeq n with
          | .error e => (.error e, d)
          | .ok () => (.ok (), updTarget { d with remoteCSeq := n } r.headers)
        else (.ok (), updTarget { d with remoteCSeq := n } r.headers)

/-- lib.rs 677-683 `needs_refresh`; the time elapsed is in nanoseconds. -/
def needsRefresh (d : Dialog) (elapsed : Nat) : Bool :=
  match d.sessionExpires with
  | some e => elapsed ≥ e * 1000000000 * 2 / 3
  | none => false

/-- lib.rs 686-695 `matches_request`. -/
def matchesRequest (d : Dialog) (hs : Headers) : Run Bool :=
  match DialogId.fromRequest hs with
  | .panic => .panic
  | .done none => .done false
  | .done (some i) =>
    .done (i.callId == d.id.callId && i.localTag == d.id.remoteTag && i.remoteTag == d.id.localTag)

end Dialog

/-! ## The dialog manager -/

/-- lib.rs 699-707 `DialogManager`. -/
structure Mgr where
  dialogs : Tbl DialogId Dialog
  deriving DecidableEq, Repr

namespace Mgr

/-- lib.rs 710-716 `new`. -/
def new : Mgr := ⟨[]⟩

/-- lib.rs 737-745: the other early dialogs of the same call. -/
def earlyCount (m : Mgr) (d : Dialog) : Nat :=
  (m.dialogs.filter (fun e => e.2.state == .early && e.1.callId == d.id.callId && e.1 != d.id)).length

/-- lib.rs 724-755 `insert`. -/
def insert (m : Mgr) (d : Dialog) : Except DErr Unit × Mgr :=
  if m.dialogs.length ≥ MAX_CONFIRMED_DIALOGS then (.error .tooManyDialogs, m)
  else if d.state = .early ∧ m.earlyCount d ≥ MAX_EARLY_DIALOGS_PER_CALL_ID then (.error .tooManyDialogs, m)
  else (.ok (), ⟨m.dialogs.insert d.id d⟩)

/-- lib.rs 758-760 `get`. -/
def get (m : Mgr) (i : DialogId) : Option Dialog := m.dialogs.get i

/-- lib.rs 763-772 `find_by_request`. -/
def findByRequest (m : Mgr) (hs : Headers) : Run (Option Dialog) :=
  match DialogId.fromRequest hs with
  | .panic => .panic
  | .done none => .done none
  | .done (some i) => .done (m.get { callId := i.callId, localTag := i.remoteTag, remoteTag := i.localTag })

/-- lib.rs 775-781 `remove`. -/
def remove (m : Mgr) (i : DialogId) : Mgr := ⟨m.dialogs.remove i⟩

/-- lib.rs 789-792 `cleanup_terminated`. -/
def cleanup (m : Mgr) : Mgr := ⟨m.dialogs.filter (fun e => e.2.state != .terminated)⟩

/-- lib.rs 799-804 `find_by_call_id`: the first in the order of the map, which is not specified; the model
takes the order of the table. -/
def findByCallId (m : Mgr) (c : Str) : Option Dialog := (m.dialogs.find? (fun e => e.1.callId == c)).map (·.2)

end Mgr

/-! ## Histories -/

/-- What can happen to a dialog held by the application. -/
inductive DOp
  | request (r : Request)
  | response (r : Response)
  | confirm
  | terminate
  | next
  | setSE (secs : Nat)

/-- One operation; an error leaves the dialog as it was. -/
def Dialog.step (d : Dialog) : DOp → Dialog
  | .request r => (d.updateFromRequest r).2
  | .response r => d.updateFromResponse r
  | .confirm => d.confirm
  | .terminate => d.terminate
  | .next => d.nextLocalCSeq.2
  | .setSE s =>
    match d.setSessionExpires s with
    | .error _ => d
    | .ok d => d

/-- A history. -/
def Dialog.run (d : Dialog) (ops : List DOp) : Dialog := ops.foldl Dialog.step d

/-- Operations on a manager. -/
inductive MOp
  | insert (d : Dialog)
  | remove (i : DialogId)
  | cleanup

/-- One operation. -/
def Mgr.step (m : Mgr) : MOp → Mgr
  | .insert d => (m.insert d).2
  | .remove i => m.remove i
  | .cleanup => m.cleanup

/-- A history of the manager. -/
def Mgr.run (ops : List MOp) : Mgr := ops.foldl Mgr.step Mgr.new

end Siphon.Dlg
