import Verif.Dialog.Uac
import Verif.Dialog.Timer
import Verif.Manager.Model
import Verif.Uas.Rport
/-!
# Responses of the user agent server

Model of the response builders of `crates/sip-uas/src/lib.rs` and of the dispatcher of
`crates/sip-uas/src/integrated.rs`.  A response is built with `.unwrap()` and `.expect()` at every step: a header that
cannot be stored is a panic.  The random tags (`generate_tag`, lib.rs 1400-1413) are arguments.
-/
namespace Siphon.Uas
open Siphon.Dlg (Dialog DialogId addAll copyHeader angle)

/-- `str::contains` and `str::find` for a non-empty text: what stands before and after its first occurrence. -/
def cutAt (needle : Str) : Str → Option (Str × Str)
  | [] => none
  | c :: s =>
    if needle.isPrefixOf (c :: s) then some ([], (c :: s).drop needle.length)
    else (cutAt needle s).map (fun p => (c :: p.1, p.2))

/-- `response.headers_mut().push(name, value).unwrap()`. -/
def pushU (r : Response) (n : String) (v : Str) : Run Response :=
  match r.headers.push n.toList v with
  | .ok hs => .done { r with headers := hs }
  | .error _ => .panic

/-- `response.headers_mut().set_or_push(name, value).expect(..)`. -/
def setE (r : Response) (n : String) (v : Str) : Run Response :=
  match r.headers.setOrPush n.toList v with
  | .ok hs => .done { r with headers := hs }
  | .error _ => .panic

/-- lib.rs 1495-1501 and 1526-1532: the value of the first header whose name is exactly `To`. -/
def exactTo (hs : Headers) : Option Str := (hs.inner.find? (fun h => h.name == "To".toList)).map (·.value)

/-- lib.rs 1521-1547 `ensure_to_tag_header` (and 1364-1366 `ensure_to_tag`); `tag` is the generated tag. -/
def ensureToTag (r : Response) (tag : Str) : Run Response :=
  match exactTo r.headers with
  | none => .done r
  | some to => if (cutAt ";tag=".toList to).isSome then .done r else setE r "To" (to ++ ";tag=".toList ++ tag)

/-- lib.rs 1506-1512: the value without its first `;tag=`. -/
def stripTag (to : Str) : Str :=
  match cutAt ";tag=".toList to with
  | none => to
  | some (before, after) =>
    match splitOnce ';' after with
    | none => before
    | some (_, rest) => before ++ ';' :: rest

/-- lib.rs 1494-1518 `replace_to_tag`. -/
def replaceToTag (r : Response) (tag : Str) : Run Response :=
  match exactTo r.headers with
  | none => .done r
  | some to => setE r "To" (stripTag to ++ ";tag=".toList ++ tag)

/-- lib.rs 288-325: the headers pushed by `create_response`, in order. -/
def answerHeaders (rq : Headers) : List (String × Str) :=
  (rq.getAll "Via".toList).map (fun v => ("Via", v)) ++ copyHeader rq "From" ++ copyHeader rq "Call-ID" ++
    copyHeader rq "CSeq" ++ copyHeader rq "To" ++ (rq.getAll "Record-Route".toList).map (fun v => ("Record-Route", v)) ++
    [("Content-Length", "0".toList)]

/-- lib.rs 285-345 `create_response`. -/
def createResponse (rq : Headers) (code : Nat) (reason tag : Str) : Run Response :=
  match addAll (answerHeaders rq) .empty with
  | .panic => .panic
  | .done hs =>
    match Response.new code reason hs [] with
    | .error _ => .panic
    | .ok r => if code = 100 then .done r else ensureToTag r tag

/-- lib.rs 395-415 and 1290-1315: an SDP body is added to the response. -/
def attachSdp (r : Response) : Option Str → Run Response
  | none => .done r
  | some b => do
    let r ← setE r "Content-Length" (showNat (utf8Len b))
    let r ← pushU r "Content-Type" "application/sdp".toList
    match Response.new r.code r.reason r.headers (utf8 b) with
    | .error _ => .panic
    | .ok r => .done r

/-- lib.rs 42 `MAX_BODY_LENGTH`. -/
def MAX_BODY_LENGTH : Nat := 1048576

/-- lib.rs 128-136 `validate_body`, for an optional body. -/
def validBody : Option Str → Bool
  | none => true
  | some b => utf8Len b ≤ MAX_BODY_LENGTH

/-- lib.rs 115-126 `validate_sip_etag`, for an optional value. -/
def validEtag : Option Str → Bool
  | none => true
  | some e => utf8Len e ≤ 256 && !e.any isControl

/-- lib.rs 102-113 `validate_reason_phrase`. -/
def validReason (s : Str) : Bool := utf8Len s ≤ 128 && !s.any isControl

/-- The first word of the CSeq value, or "0" (lib.rs 533). -/
def cseqWord (v : Str) : Str :=
  match splitWhitespace v with
  | w :: _ => w
  | [] => "0".toList

/-- The responses a server can build.  `plain` stands for `create_response` and for the builders that add nothing to
it: `create_trying` 348, `create_ringing` 353, `accept_message` 421, `reject_message_publish` 450, `create_busy` 508,
`create_decline` 515, `create_request_terminated` 521, `reject_invite` 806, `handle_cancel` 904, `reject_refer` 1200,
`create_bad_request` 1392 (most of them call `ensure_to_tag` once more, which finds the tag already there). -/
inductive Answer
  | plain (code : Nat) (reason : Str)
  /-- `create_ok` 367-419, also used by `accept_invite`, `handle_bye` and `handle_info` -/
  | ok (body : Option Str)
  /-- `create_ok` with the session timer headers of `accept_invite_with_session_timer` 742-762 -/
  | timed (body : Option Str) (value : Str)
  /-- `accept_publish` 429-447 -/
  | publish (etag : Option Str)
  /-- `accept_options` 467-494 -/
  | options
  /-- `create_request_terminated_from_cancel` 530-541 -/
  | terminated
  /-- `create_session_interval_too_small` 555-566 -/
  | tooSmall (minSe : Nat)
  /-- `accept_refer` 1155-1190 -/
  | refer
  /-- `create_reliable_provisional` 1219-1318 with the number of the RSeq manager and the local tag of the dialog -/
  | reliable (code : Nat) (reason : Str) (rseq : Nat) (dialogTag : Str) (body : Option Str)

/-- The status code. -/
def Answer.code : Answer → Nat
  | .plain c _ => c
  | .ok _ | .timed _ _ | .publish _ | .options => 200
  | .terminated => 487
  | .tooSmall _ => 422
  | .refer => 202
  | .reliable c _ _ _ _ => c

/-- lib.rs 367-419 `create_ok` without the check of the body. -/
def createOk (contact : SipUri) (rq : Headers) (tag : Str) (body : Option Str) : Run Response := do
  let r ← createResponse rq 200 "OK".toList tag
  let r ← pushU r "Contact" (angle contact)
  let r ← ensureToTag r tag
  attachSdp r body

/-- The builders; `none` is an error return (lib.rs 102-136).  `create_reliable_provisional` panics for a code that is
not provisional (1227-1229).  In `timed` the two pushes are errors and not panics (753, 757). -/
def build (contact : SipUri) (rq : Headers) (tag : Str) : Answer → Run (Option Response)
  | .plain c s => do
    let r ← createResponse rq c s tag
    .done (some r)
  | .ok b =>
    if !validBody b then .done none
    else do
      let r ← createOk contact rq tag b
      .done (some r)
  | .timed b v =>
    if !validBody b then .done none
    else do
      let r ← createOk contact rq tag b
      match r.headers.push "Session-Expires".toList v with
      | .error _ => .done none
      | .ok hs =>
        match hs.push "Require".toList "timer".toList with
        | .error _ => .done none
        | .ok hs => .done (some { r with headers := hs })
  | .publish e =>
    if !validEtag e then .done none
    else do
      let r ← createResponse rq 200 "OK".toList tag
      match e with
      | none => .done (some r)
      | some v => do
        let r ← pushU r "SIP-ETag" v
        .done (some r)
  | .options => do
    let r ← createResponse rq 200 "OK".toList tag
    let r ← setE r "Allow" "INVITE, ACK, BYE, CANCEL, OPTIONS".toList
    let r ← setE r "Accept" "application/sdp".toList
    .done (some r)
  | .terminated => do
    let r ← createResponse rq 487 "Request Terminated".toList tag
    let r ← ensureToTag r tag
    match rq.get "CSeq".toList with
    | none => .done (some r)
    | some v => do
      let r ← setE r "CSeq" (cseqWord v ++ " INVITE".toList)
      .done (some r)
  | .tooSmall m => do
    let r ← createResponse rq 422 "Session Interval Too Small".toList tag
    let r ← pushU r "Min-SE" (showNat m)
    let r ← ensureToTag r tag
    .done (some r)
  | .refer => do
    let r ← createResponse rq 202 "Accepted".toList tag
    let r ← pushU r "Contact" (angle contact)
    let r ← ensureToTag r tag
    .done (some r)
  | .reliable c s n t b =>
    if !(100 ≤ c && c < 200) then .panic
    else if !validReason s then .done none
    else if !validBody b then .done none
    else do
      let r ← createResponse rq c s tag
      let r ← pushU r "RSeq" (showNat n)
      let r ← pushU r "Require" "100rel".toList
      let r ← pushU r "Contact" (angle contact)
      let r ← replaceToTag r t
      let r ← attachSdp r b
      .done (some r)

/-! ## Accepting a call -/

/-- lib.rs 1550-1571 `extract_from_uri`. -/
def extractFromUri (hs : Headers) : Option SipUri :=
  match hs.get "From".toList with
  | none => none
  | some v =>
    match splitOnce '<' v with
    | some (_, rest) =>
      match splitOnce '>' rest with
      | some (u, _) => SipUri.parse (trim u)
      | none => none
    | none =>
      match splitOnce ';' v with
      | some (u, _) => SipUri.parse (trim u)
      | none => SipUri.parse (trim v)

/-- lib.rs 1371-1389 `validate_invite_headers`; `false` is the 400.  `extract_tag_param` (1448-1457) is the
`extract_tag` of the dialog crate. -/
def validInvite (rq : Request) : Run Bool :=
  if rq.method.asStr ≠ "INVITE".toList then .done true
  else if ["Via", "From", "To", "Call-ID", "CSeq"].any (fun n => (rq.headers.get n.toList).isNone) then .done false
  else
    match rq.headers.get "From".toList with
    | none => .done false
    | some f =>
      match Dlg.extractTag f with
      | .panic => .panic
      | .done t => .done t.isSome

/-- The parts of `UserAgentServer` used here (lib.rs 230-254). -/
structure Server where
  localUri : SipUri
  contactUri : SipUri
  dialogs : Dlg.Mgr

/-- What accepting an INVITE gives. -/
inductive Outcome
  | error
  | tooSmall (r : Response)
  | accepted (r : Response) (d : Dialog)
  deriving DecidableEq

/-- lib.rs 638-657 and 771-789: the dialog for the 2xx.  The result of storing it is ignored. -/
def openDialog (s : Server) (rq : Request) (r : Response) : Run (Outcome × Server) :=
  match extractFromUri rq.headers with
  | none => .done (.error, s)
  | some remote =>
    match Dialog.newUas rq r s.localUri remote with
    | .panic => .panic
    | .done none => .done (.error, s)
    | .done (some d) => .done (.accepted r d, { s with dialogs := (s.dialogs.insert d).2 })

/-- The builder's answer for an accepted INVITE: without a policy lib.rs 613-636, with one 685-769. -/
def inviteAnswer (policy : Option Dlg.TimerPolicy) (rq : Headers) (body : Option Str) : Answer :=
  match policy with
  | none => .ok body
  | some p =>
    match Dlg.acceptTimer p rq with
    | .tooSmall m => .tooSmall m
    | .noTimer => .ok body
    | .timer v _ _ => .timed body v

/-- lib.rs 613-658 `accept_invite` (`policy = none`) and 685-795 `accept_invite_with_session_timer`.  `authed` is the
result of the configured authenticator, true if there is none. -/
def acceptInvite (s : Server) (policy : Option Dlg.TimerPolicy) (authed : Bool) (rq : Request) (body : Option Str)
    (tag : Str) : Run (Outcome × Server) :=
  if rq.method.asStr ≠ "INVITE".toList then .done (.error, s)
  else
    match validInvite rq with
    | .panic => .panic
    | .done false => .done (.error, s)
    | .done true =>
      if !authed then .done (.error, s)
      else
        match build s.contactUri rq.headers tag (inviteAnswer policy rq.headers body) with
        | .panic => .panic
        | .done none => .done (.error, s)
        | .done (some r) =>
          match inviteAnswer policy rq.headers body with
          | .tooSmall _ => .done (.tooSmall r, s)
          | _ => openDialog s rq r

/-! ## The dispatcher -/

/-- The settings of `IntegratedUAS` and the answers of the application's hooks used by the dispatcher (integrated.rs
341-356 and the configuration).  `contactUser` is the user part of the Contact URI or "server", `advertised` the public
or local address, `allow` the Allow value of the request handler. -/
structure Settings where
  fillVia : Bool
  fillContact : Bool
  sendTrying : Bool
  requireAuth : Bool
  contactUser : Str
  advertised : Str
  advertisedPort : Nat
  allow : Str
  agent : Str

/-- The transport context of a request: source address and port, the port of the receiving listener if known, and the
lower-case name of the transport (integrated.rs 836-847). -/
structure From where
  ip : Str
  port : Nat
  localPort : Option Nat
  transport : Str

/-- integrated.rs 867-880 `build_contact_value`. -/
def contactValue (c : Settings) (f : From) : Str :=
  "<sip:".toList ++ c.contactUser ++ '@' :: c.advertised ++ ':' ::
    showNat (match f.localPort with | some p => p | none => c.advertisedPort) ++ ";transport=".toList ++ f.transport ++ ">".toList

/-- integrated.rs 726-741: a Contact that cannot be set is left out. -/
def fillContact (c : Settings) (f : From) (hs : Headers) : Headers :=
  if c.fillContact then
    match hs.setOrPush "Contact".toList (contactValue c f) with
    | .ok hs' => hs'
    | .error _ => hs
  else hs

/-- integrated.rs 743-757: a header added when missing. -/
def addMissing (r : Response) (n : String) (v : Str) : Run Response :=
  if (r.headers.get n.toList).isNone then pushU r n v else .done r

/-- integrated.rs 719-758 `auto_fill_headers`. -/
def autoFill (c : Settings) (f : From) (r : Response) : Run Response := do
  let hs := if c.fillVia then applyRport r.headers f.ip f.port else r.headers
  let r := { r with headers := fillContact c f hs }
  let r ← addMissing r "Allow" c.allow
  addMissing r "Server" c.agent

/-- What the dispatcher does with a request, in order. -/
inductive Act
  /-- the handler for this method is called, with the dialog the request belongs to -/
  | app (method : Str) (dialog : Option Dialog)
  /-- a provisional response in the transaction of the request -/
  | provisional (r : Response)
  /-- a final response in the transaction of the request -/
  | final (r : Response)
  /-- a final response in the INVITE transaction with this branch -/
  | inviteFinal (branch : Str) (r : Response)
  deriving DecidableEq

/-- A response made by the dispatcher itself and sent in the transaction of the request. -/
def reply (c : Settings) (f : From) (rq : Request) (tag : Str) (code : Nat) (reason : String) : Run (List Act) := do
  let r ← createResponse rq.headers code reason.toList tag
  let r ← autoFill c f r
  .done [.final r]

/-- integrated.rs 440-463 and 515-574: a request that needs a dialog. -/
def inDialog (c : Settings) (s : Server) (f : From) (rq : Request) (tag : Str) : Run (List Act) :=
  match s.dialogs.findByRequest rq.headers with
  | .panic => .panic
  | .done (some d) => .done [.app rq.method.asStr (some d)]
  | .done none => reply c f rq tag 481 "Call/Transaction Does Not Exist"

/-- integrated.rs 400-426: INVITE. -/
def onInvite (c : Settings) (s : Server) (f : From) (rq : Request) (tag : Str) : Run (List Act) :=
  match validInvite rq with
  | .panic => .panic
  | .done false => reply c f rq tag 400 "Bad Request"
  | .done true =>
    match s.dialogs.findByRequest rq.headers with
    | .panic => .panic
    | .done d =>
      if c.sendTrying then do
        let r ← createResponse rq.headers 100 "Trying".toList tag
        let r ← autoFill c f r
        .done [.provisional r, .app rq.method.asStr d]
      else .done [.app rq.method.asStr d]

/-- integrated.rs 427-439: ACK. -/
def onAck (s : Server) (rq : Request) : Run (List Act) :=
  match s.dialogs.findByRequest rq.headers with
  | .panic => .panic
  | .done (some d) => .done [.app rq.method.asStr (some d)]
  | .done none => .done []

/-- integrated.rs 464-476: CANCEL; `handled` says that the handler returned without an error. -/
def onCancel (c : Settings) (s : Server) (f : From) (rq : Request) (tag : Str) (handled : Bool) : Run (List Act) :=
  if !handled then .done [.app rq.method.asStr none]
  else
    match (rq.headers.get "Via".toList).bind Manager.branchFromVia with
    | none => .done [.app rq.method.asStr none]
    | some b =>
      match build s.contactUri rq.headers tag .terminated with
      | .panic => .panic
      | .done none => .done [.app rq.method.asStr none]
      | .done (some r) => do
        let r ← autoFill c f r
        .done [.app rq.method.asStr none, .inviteFinal b r]

/-- integrated.rs 480-502: OPTIONS. -/
def onOptions (c : Settings) (s : Server) (f : From) (rq : Request) (tag : Str) : Run (List Act) :=
  match build s.contactUri rq.headers tag .options with
  | .panic => .panic
  | .done none => .done []
  | .done (some r) => do
    let r ← setE r "Allow" c.allow
    let r ← autoFill c f r
    .done [.final r]

/-- integrated.rs 396-585: the request goes by its method. -/
def route (c : Settings) (s : Server) (f : From) (rq : Request) (tag : Str) (handled : Bool) : Run (List Act) :=
  if rq.method.asStr = "INVITE".toList then onInvite c s f rq tag
  else if rq.method.asStr = "ACK".toList then onAck s rq
  else if rq.method.asStr = "CANCEL".toList then onCancel c s f rq tag handled
  else if rq.method.asStr = "OPTIONS".toList then onOptions c s f rq tag
  else if ["REGISTER", "SUBSCRIBE", "NOTIFY"].any (fun m => rq.method.asStr = m.toList) then
    .done [.app rq.method.asStr none]
  else if ["BYE", "REFER", "UPDATE", "PRACK", "INFO"].any (fun m => rq.method.asStr = m.toList) then
    inDialog c s f rq tag
  else reply c f rq tag 501 "Not Implemented"

/-- integrated.rs 372-585 `dispatch`.  `authed` is the answer of `verify_authentication` and `challenge` the response
of `create_unauthorized`, both used only if authentication is required (their errors end the call with nothing sent);
`handled` says that `on_cancel` returned without an error.  Simplification: the request handler is called and its own
effects are not part of the model. -/
def dispatch (c : Settings) (s : Server) (f : From) (rq : Request) (tag : Str) (authed : Option Bool)
    (challenge : Option Response) (handled : Bool) : Run (List Act) :=
  if c.requireAuth && rq.method != .ack then
    match authed with
    | none => .done []
    | some true => route c s f rq tag handled
    | some false =>
      match challenge with
      | none => .done []
      | some r => do
        let r ← autoFill c f r
        .done [.final r]
  else route c s f rq tag handled

end Siphon.Uas
