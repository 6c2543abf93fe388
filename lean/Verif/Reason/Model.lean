import Verif.Base.Text
import Verif.Base.BMap
import Verif.Base.Num
import Verif.Core.Headers
/-!
# The Reason header (sip-core, reason.rs, RFC 3326)

An error is `none`: its kind and message are not modelled.
-/
namespace Siphon.Reason

/-- reason.rs 10-14. -/
def MAX_PROTOCOL_LENGTH : Nat := 32
def MAX_PARAM_NAME_LENGTH : Nat := 64
def MAX_PARAM_VALUE_LENGTH : Nat := 256
def MAX_PARAMS : Nat := 20
def MAX_PARSE_INPUT : Nat := 1024

/-- reason.rs 397-416 `validate_protocol`. -/
def validProtocol (s : Str) : Bool := !s.isEmpty && !(utf8Len s > MAX_PROTOCOL_LENGTH) && !s.any isAsciiControl

/-- reason.rs 418-437 `validate_param_name`. -/
def validName (s : Str) : Bool := !s.isEmpty && !(utf8Len s > MAX_PARAM_NAME_LENGTH) && !s.any isAsciiControl

/-- reason.rs 439-454 `validate_param_value`. -/
def validValue (s : Str) : Bool := !(utf8Len s > MAX_PARAM_VALUE_LENGTH) && !s.any isAsciiControl

/-- reason.rs 82-86 `ReasonHeader`; the parameters are a `BTreeMap`. -/
structure Header where
  protocol : Str
  params : BMap (Option Str)
  deriving DecidableEq, Repr

/-- reason.rs 99-121 `ReasonProtocol::from_str` and `as_str`, as they are used in 312-315 and 579-582: the well-known
protocols are written as in RFC 3326, others are kept. -/
def canonical (p : Str) : Str :=
  if lower p = "sip".toList then "SIP".toList
  else if lower p = "q.850".toList then "Q.850".toList
  else if lower p = "sdp".toList then "SDP".toList
  else p

/-- reason.rs 130-161 `Q850Cause`. -/
inductive Cause
  | unallocatedNumber
  | noRouteToTransitNetwork
  | noRouteToDestination
  | normalCallClearing
  | userBusy
  | noUserResponding
  | noAnswer
  | subscriberAbsent
  | callRejected
  | numberChanged
  | destinationOutOfOrder
  | invalidNumberFormat
  | facilityRejected
  | normalUnspecified
  | noCircuitAvailable
  | networkOutOfOrder
  | temporaryFailure
  | switchingEquipmentCongestion
  | resourceUnavailable
  | incomingCallsBarred
  | bearerCapabilityNotAuthorized
  | bearerCapabilityNotAvailable
  | serviceNotAvailable
  | bearerCapabilityNotImplemented
  | serviceNotImplemented
  | userNotMemberOfCUG
  | incompatibleDestination
  | recoveryOnTimerExpiry
  | protocolError
  | interworkingUnspecified
  deriving DecidableEq, Repr

/-- reason.rs 130-166 `Q850Cause::code`. -/
def Cause.code : Cause → Nat
  | .unallocatedNumber => 1
  | .noRouteToTransitNetwork => 2
  | .noRouteToDestination => 3
  | .normalCallClearing => 16
  | .userBusy => 17
  | .noUserResponding => 18
  | .noAnswer => 19
  | .subscriberAbsent => 20
  | .callRejected => 21
  | .numberChanged => 22
  | .destinationOutOfOrder => 27
  | .invalidNumberFormat => 28
  | .facilityRejected => 29
  | .normalUnspecified => 31
  | .noCircuitAvailable => 34
  | .networkOutOfOrder => 38
  | .temporaryFailure => 41
  | .switchingEquipmentCongestion => 42
  | .resourceUnavailable => 47
  | .incomingCallsBarred => 55
  | .bearerCapabilityNotAuthorized => 57
  | .bearerCapabilityNotAvailable => 58
  | .serviceNotAvailable => 63
  | .bearerCapabilityNotImplemented => 65
  | .serviceNotImplemented => 79
  | .userNotMemberOfCUG => 87
  | .incompatibleDestination => 88
  | .recoveryOnTimerExpiry => 102
  | .protocolError => 111
  | .interworkingUnspecified => 127

/-- reason.rs 168-201 `Q850Cause::text`. -/
def Cause.text : Cause → Str
  | .unallocatedNumber => "Unallocated Number".toList
  | .noRouteToTransitNetwork => "No Route to Transit Network".toList
  | .noRouteToDestination => "No Route to Destination".toList
  | .normalCallClearing => "Normal Call Clearing".toList
  | .userBusy => "User Busy".toList
  | .noUserResponding => "No User Responding".toList
  | .noAnswer => "No Answer".toList
  | .subscriberAbsent => "Subscriber Absent".toList
  | .callRejected => "Call Rejected".toList
  | .numberChanged => "Number Changed".toList
  | .destinationOutOfOrder => "Destination Out of Order".toList
  | .invalidNumberFormat => "Invalid Number Format".toList
  | .facilityRejected => "Facility Rejected".toList
  | .normalUnspecified => "Normal Unspecified".toList
  | .noCircuitAvailable => "No Circuit Available".toList
  | .networkOutOfOrder => "Network Out of Order".toList
  | .temporaryFailure => "Temporary Failure".toList
  | .switchingEquipmentCongestion => "Switching Equipment Congestion".toList
  | .resourceUnavailable => "Resource Unavailable".toList
  | .incomingCallsBarred => "Incoming Calls Barred".toList
  | .bearerCapabilityNotAuthorized => "Bearer Capability Not Authorized".toList
  | .bearerCapabilityNotAvailable => "Bearer Capability Not Available".toList
  | .serviceNotAvailable => "Service Not Available".toList
  | .bearerCapabilityNotImplemented => "Bearer Capability Not Implemented".toList
  | .serviceNotImplemented => "Service Not Implemented".toList
  | .userNotMemberOfCUG => "User Not Member of CUG".toList
  | .incompatibleDestination => "Incompatible Destination".toList
  | .recoveryOnTimerExpiry => "Recovery on Timer Expiry".toList
  | .protocolError => "Protocol Error".toList
  | .interworkingUnspecified => "Interworking Unspecified".toList

/-- reason.rs 203-237 `Q850Cause::from_code`. -/
def Cause.fromCode : Nat → Option Cause
  | 1 => some .unallocatedNumber
  | 2 => some .noRouteToTransitNetwork
  | 3 => some .noRouteToDestination
  | 16 => some .normalCallClearing
  | 17 => some .userBusy
  | 18 => some .noUserResponding
  | 19 => some .noAnswer
  | 20 => some .subscriberAbsent
  | 21 => some .callRejected
  | 22 => some .numberChanged
  | 27 => some .destinationOutOfOrder
  | 28 => some .invalidNumberFormat
  | 29 => some .facilityRejected
  | 31 => some .normalUnspecified
  | 34 => some .noCircuitAvailable
  | 38 => some .networkOutOfOrder
  | 41 => some .temporaryFailure
  | 42 => some .switchingEquipmentCongestion
  | 47 => some .resourceUnavailable
  | 55 => some .incomingCallsBarred
  | 57 => some .bearerCapabilityNotAuthorized
  | 58 => some .bearerCapabilityNotAvailable
  | 63 => some .serviceNotAvailable
  | 65 => some .bearerCapabilityNotImplemented
  | 79 => some .serviceNotImplemented
  | 87 => some .userNotMemberOfCUG
  | 88 => some .incompatibleDestination
  | 102 => some .recoveryOnTimerExpiry
  | 111 => some .protocolError
  | 127 => some .interworkingUnspecified
  | _ => none

/-- reason.rs 457-512 `sip_response_text`. -/
def sipText : Nat → Str
  | 100 => "Trying".toList
  | 180 => "Ringing".toList
  | 181 => "Call Is Being Forwarded".toList
  | 182 => "Queued".toList
  | 183 => "Session Progress".toList
  | 200 => "OK".toList
  | 202 => "Accepted".toList
  | 300 => "Multiple Choices".toList
  | 301 => "Moved Permanently".toList
  | 302 => "Moved Temporarily".toList
  | 305 => "Use Proxy".toList
  | 380 => "Alternative Service".toList
  | 400 => "Bad Request".toList
  | 401 => "Unauthorized".toList
  | 402 => "Payment Required".toList
  | 403 => "Forbidden".toList
  | 404 => "Not Found".toList
  | 405 => "Method Not Allowed".toList
  | 406 => "Not Acceptable".toList
  | 407 => "Proxy Authentication Required".toList
  | 408 => "Request Timeout".toList
  | 410 => "Gone".toList
  | 413 => "Request Entity Too Large".toList
  | 414 => "Request-URI Too Long".toList
  | 415 => "Unsupported Media Type".toList
  | 416 => "Unsupported URI Scheme".toList
  | 420 => "Bad Extension".toList
  | 421 => "Extension Required".toList
  | 423 => "Interval Too Brief".toList
  | 480 => "Temporarily Unavailable".toList
  | 481 => "Call/Transaction Does Not Exist".toList
  | 482 => "Loop Detected".toList
  | 483 => "Too Many Hops".toList
  | 484 => "Address Incomplete".toList
  | 485 => "Ambiguous".toList
  | 486 => "Busy Here".toList
  | 487 => "Request Terminated".toList
  | 488 => "Not Acceptable Here".toList
  | 491 => "Request Pending".toList
  | 493 => "Undecipherable".toList
  | 500 => "Server Internal Error".toList
  | 501 => "Not Implemented".toList
  | 502 => "Bad Gateway".toList
  | 503 => "Service Unavailable".toList
  | 504 => "Server Time-out".toList
  | 505 => "Version Not Supported".toList
  | 513 => "Message Too Large".toList
  | 600 => "Busy Everywhere".toList
  | 603 => "Decline".toList
  | 604 => "Does Not Exist Anywhere".toList
  | 606 => "Not Acceptable".toList
  | _ => "Unknown".toList

/-- reason.rs 248-262 `ReasonHeader::q850`. -/
def Header.q850 (c : Cause) : Header :=
  ⟨"Q.850".toList, (BMap.insert (BMap.insert [] "cause".toList (some (showNat c.code))) "text".toList (some c.text))⟩

/-- reason.rs 263-279 `ReasonHeader::sip`. -/
def Header.sip (code : Nat) (text : Option Str) : Option Header :=
  let t := match text with | some t => t | none => sipText code
  if !validValue t then none
  else some ⟨"SIP".toList, (BMap.insert (BMap.insert [] "cause".toList (some (showNat code))) "text".toList (some t))⟩

/-- The loop of reason.rs 297-310. -/
def newParams : List (Str × Option Str) → BMap (Option Str) → Option (BMap (Option Str))
  | [], m => some m
  | (n, v) :: t, m =>
    if !validName (lower n) then none
    else if !v.all validValue then none
    else if m.has (lower n) then none
    else newParams t (m.insert (lower n) v)

/-- reason.rs 284-321 `ReasonHeader::new`. -/
def Header.new (protocol : Str) (params : BMap (Option Str)) : Option Header :=
  if !validProtocol protocol then none
  else if params.length > MAX_PARAMS then none
  else (newParams params []).map (fun m => ⟨canonical protocol, m⟩)

/-- reason.rs 336-338 `get_param`. -/
def Header.getParam (h : Header) (name : Str) : Option (Option Str) := h.params.get (lower name)

/-- reason.rs 341-346 `cause_code`; 65535 is `u16::MAX`. -/
def Header.causeCode (h : Header) : Option Nat :=
  match h.params.get "cause".toList with
  | some (some s) => parseDec 65535 s
  | _ => none

/-- reason.rs 349-354 `text`. -/
def Header.text (h : Header) : Option Str :=
  match h.params.get "text".toList with
  | some (some s) => some s
  | _ => none

/-- reason.rs 357-359 `is_q850`. -/
def Header.isQ850 (h : Header) : Bool := eqIgnoreCase h.protocol "Q.850".toList

/-- reason.rs 367-373 `as_q850_cause`. -/
def Header.asQ850 (h : Header) : Option Cause := if h.isQ850 then h.causeCode.bind Cause.fromCode else none

/-- One turn of the loop of reason.rs 380-389. -/
def paramText (p : Str × Option Str) : Str :=
  match p.2 with
  | some v =>
    if p.1 = "text".toList ∨ v.any (fun c => isWs c || c == ';') then ';' :: p.1 ++ '=' :: '"' :: v ++ ['"']
    else ';' :: p.1 ++ '=' :: v
  | none => ';' :: p.1

/-- reason.rs 376-392 `Display`. -/
def Header.show (h : Header) : Str := h.protocol ++ (h.params.map paramText).flatten

/-- reason.rs 589-615 `unescape_quoted_string`; the flag is `escape`. -/
def unescape : Bool → Str → Option Str
  | true, [] => none
  | false, [] => some []
  | true, c :: s => (unescape false s).map (c :: ·)
  | false, c :: s =>
    if c = '\\' then unescape true s
    else if isAsciiControl c then none
    else (unescape false s).map (c :: ·)

/-- reason.rs 550-556: a value in quotes is unescaped. -/
def unquote (raw : Str) : Option Str :=
  if raw.head? = some '"' ∧ raw.getLast? = some '"' ∧ utf8Len raw ≥ 2 then unescape false (raw.drop 1).dropLast
  else some raw

/-- reason.rs 548-576: one parameter, without the white space around it. -/
def readParam (p : Str) : Option (Str × Option Str) :=
  match splitOnce '=' p with
  | some (n, v) =>
    match unquote (trim v) with
    | none => none
    | some w =>
      if !validName (lower (trim n)) then none
      else if !validValue w then none
      else some (lower (trim n), some w)
  | none => if !validName (lower p) then none else some (lower p, none)

/-- The loop of reason.rs 534-577. -/
def readParams : List Str → BMap (Option Str) → Option (BMap (Option Str))
  | [], m => some m
  | p :: ps, m =>
    if (trim p).isEmpty then readParams ps m
    else if m.length ≥ MAX_PARAMS then none
    else
      match readParam (trim p) with
      | none => none
      | some (k, v) => if m.has k then none else readParams ps (m.insert k v)

/-- reason.rs 521-587 `parse_reason_from_string`. -/
def parse (value : Str) : Option Header :=
  if utf8Len value > MAX_PARSE_INPUT then none
  else
    match splitChar ';' value with
    | [] => none
    | p :: ps =>
      if !validProtocol (trim p) then none
      else (readParams ps []).map (fun m => ⟨canonical (trim p), m⟩)

/-- reason.rs 515-518 `parse_reason_header`. -/
def parseHeader (hs : Headers) : Option Header :=
  match hs.get "Reason".toList with
  | none => none
  | some v => parse v

end Siphon.Reason
