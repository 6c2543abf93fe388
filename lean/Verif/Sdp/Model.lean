import Verif.Base.Text
import Verif.Base.Num
import Verif.Base.Table
/-!
# Model: session descriptions, their builders and accessors, negotiation (sip-sdp)

Files are those of `crates/sip-sdp/src`. Integers of fixed width are natural numbers here; where a width matters the
definition that reads the integer checks it. The map `rtpmaps` is a table whose order stands for the iteration order of the
`HashMap`, which the language leaves open: the theorems hold for every order.
-/
namespace Siphon.Sdp

/-- lib.rs 290-299 -/
inductive MediaType
  | audio | video | text | application | message
  | other (name : Str)
  deriving DecidableEq, Repr

/-- lib.rs 301-320 -/
inductive Protocol
  | rtpAvp | rtpSavp | rtpSavpf | udpTlsRtpSavpf | tcpTlsRtpSavpf | udp | tcp
  | other (name : Str)
  deriving DecidableEq, Repr

/-- lib.rs 209-218. The network type is always `IN`; the address type is `IP6` or `IP4`. -/
structure Origin where
  username : Str
  sessionId : Str
  sessionVersion : Str
  ipv6 : Bool
  address : Str
  deriving DecidableEq, Repr

/-- lib.rs 220-226 -/
structure Connection where
  ipv6 : Bool
  address : Str
  deriving DecidableEq, Repr

/-- lib.rs 236-242 -/
structure RepeatTime where
  interval : Str
  duration : Str
  offsets : List Str
  deriving DecidableEq, Repr

/-- lib.rs 228-234 -/
structure TimeDesc where
  start : Nat
  stop : Nat
  repeats : List RepeatTime
  deriving DecidableEq, Repr

/-- lib.rs 244-249 -/
structure Zone where
  time : Str
  offset : Str
  deriving DecidableEq, Repr

/-- lib.rs 250-255 -/
structure Bandwidth where
  kind : Str
  kbps : Nat
  deriving DecidableEq, Repr

/-- lib.rs 335-343 -/
inductive Attribute
  | property (name : Str)
  | value (name value : Str)
  deriving DecidableEq, Repr

/-- lib.rs 345-359 -/
structure RtpMap where
  payload : Nat
  encoding : Str
  clock : Nat
  params : Option Str
  deriving DecidableEq, Repr

/-- lib.rs 257-288 -/
structure Media where
  kind : MediaType
  port : Nat
  numPorts : Option Nat := none
  protocol : Protocol := .rtpAvp
  formats : List Str := []
  title : Option Str := none
  connection : Option Connection := none
  bandwidth : List Bandwidth := []
  key : Option Str := none
  attributes : List Attribute := []
  rtpmaps : Tbl Nat RtpMap := []
  deriving DecidableEq, Repr

/-- lib.rs 161-207; the defaults are those of lib.rs 361-393. -/
structure Session where
  version : Nat := 0
  origin : Origin := ⟨"-".toList, "0".toList, "0".toList, false, "0.0.0.0".toList⟩
  name : Str := "-".toList
  info : Option Str := none
  uri : Option Str := none
  email : Option Str := none
  phone : Option Str := none
  connection : Option Connection := none
  bandwidth : List Bandwidth := []
  times : List TimeDesc := [⟨0, 0, []⟩]
  zones : List Zone := []
  key : Option Str := none
  attributes : List Attribute := []
  media : List Media := []
  deriving DecidableEq, Repr

/-! ## Builders (lib.rs, builder.rs) -/

/-- lib.rs 129-144 `validate_field` -/
def validField (s : Str) (max : Nat) : Bool := !s.isEmpty && decide (utf8Len s ≤ max) && !s.any isControl

/-- lib.rs 147-156 `validate_clock_rate` -/
def validClock (rate : Nat) : Bool := decide (1000 ≤ rate) && decide (rate ≤ 1000000000)

/-- lib.rs 159-167 `validate_payload_type` -/
def validPayload (pt : Nat) : Bool := decide (pt ≤ 127)

/-- lib.rs 475-477 `find_media` -/
def Session.findMedia (s : Session) (k : MediaType) : Option Media := s.media.find? (fun m => m.kind == k)

/-- lib.rs 550-563 `add_format` -/
def Media.addFormat (m : Media) (pt : Nat) : Option Media :=
  if !validPayload pt then none
  else if m.formats.length ≥ 50 then none
  else some { m with formats := m.formats ++ [showNat pt] }

/-- lib.rs 566-579 `add_format_token` -/
def Media.addFormatToken (m : Media) (tok : Str) : Option Media :=
  if !validField tok 64 then none
  else if m.formats.length ≥ 50 then none
  else some { m with formats := m.formats ++ [tok] }

/-- The payload type a value starts with (lib.rs 807-812, attrs.rs 455-462). -/
def firstPt (value : Str) : Option Nat :=
  match splitWhitespace value with
  | t :: _ => parseDec 255 t
  | [] => none

/-- lib.rs 803-817 `remove_rtpmap_attr` -/
def removeRtpmapAttr (attrs : List Attribute) (pt : Nat) : List Attribute :=
  attrs.filter (fun a =>
    match a with
    | .value name value => if name = "rtpmap".toList then decide (firstPt value ≠ some pt) else true
    | .property _ => true)

/-- The value of an `rtpmap` attribute (lib.rs 628-636). -/
def rtpmapValue (r : RtpMap) : Str :=
  match r.params with
  | some p => showNat r.payload ++ ' ' :: (r.encoding ++ '/' :: (showNat r.clock ++ '/' :: p))
  | none => showNat r.payload ++ ' ' :: (r.encoding ++ '/' :: showNat r.clock)

/-- lib.rs 588-648 `add_rtpmap` -/
def Media.addRtpmap (m : Media) (r : RtpMap) : Option Media :=
  if !validPayload r.payload then none
  else if !validField r.encoding 64 then none
  else if !validClock r.clock then none
  else
    let present := Tbl.contains m.rtpmaps r.payload
    let attrs := if present then removeRtpmapAttr m.attributes r.payload else m.attributes
    let maps := if present then Tbl.remove m.rtpmaps r.payload else m.rtpmaps
    if maps.length ≥ 50 then none
    else if attrs.length ≥ 50 then none
    else some { m with attributes := attrs ++ [.value "rtpmap".toList (rtpmapValue r)], rtpmaps := Tbl.insert maps r.payload r }

/-- lib.rs 651-665 `add_property` -/
def Media.addProperty (m : Media) (name : Str) : Option Media :=
  if !validField name 128 then none
  else if m.attributes.length ≥ 50 then none
  else some { m with attributes := m.attributes ++ [.property name] }

/-- lib.rs 668-685 `add_attribute` -/
def Media.addAttribute (m : Media) (name value : Str) : Option Media :=
  if !validField name 128 then none
  else if !validField value 1024 then none
  else if m.attributes.length ≥ 50 then none
  else some { m with attributes := m.attributes ++ [.value name value] }

/-- lib.rs 819-838 `Origin::new` -/
def Origin.new (username sessionId addr : Str) : Option Origin :=
  if !validField username 256 then none
  else if !validField sessionId 256 then none
  else if !validField addr 256 then none
  else some ⟨username, sessionId, "0".toList, addr.contains ':', addr⟩

/-- lib.rs 841-856 `Connection::new` -/
def Connection.new (addr : Str) : Option Connection :=
  if !validField addr 256 then none else some ⟨addr.contains ':', addr⟩

/-- builder.rs 22-30 `origin` -/
def Session.setOrigin (s : Session) (username sessionId addr : Str) : Option Session :=
  (Origin.new username sessionId addr).map (fun o => { s with origin := o })

/-- builder.rs 33-37 `session_name` -/
def Session.setName (s : Session) (name : Str) : Option Session :=
  if !validField name 512 then none else some { s with name := name }

/-- builder.rs 47-50 `connection` -/
def Session.setConnection (s : Session) (addr : Str) : Option Session :=
  (Connection.new addr).map (fun c => { s with connection := some c })

/-- builder.rs 111-122 `media` -/
def Session.addMedia (s : Session) (m : Media) : Option Session :=
  if s.media.length ≥ 20 then none else some { s with media := s.media ++ [m] }

/-- builder.rs 125-132 `time` -/
def Session.setTime (s : Session) (start stop : Nat) : Session := { s with times := [⟨start, stop, []⟩] }

/-! ## Accessors (attrs.rs) -/

/-- attrs.rs 126-141 `parse_rtpmap_value`, and parse.rs 778-801 `parse_rtpmap`, which does the same. -/
def parseRtpmap (value : Str) : Option RtpMap :=
  match splitOnce ' ' value with
  | none => none
  | some (p, rest) =>
    match parseDec 255 p with
    | none => none
    | some pt =>
      match splitChar '/' rest with
      | name :: clock :: more =>
        match parseDec 4294967295 clock with
        | none => none
        | some c => some ⟨pt, name, c, more.head?⟩
      | _ => none

/-- lib.rs 710-729 `rebuild_rtpmaps`, and parse.rs 655-664. -/
def rtpmapsOf : List Attribute → Tbl Nat RtpMap → Tbl Nat RtpMap
  | [], t => t
  | .value name value :: as, t =>
    if name = "rtpmap".toList then
      match parseRtpmap value with
      | some r => rtpmapsOf as (Tbl.insert t r.payload r)
      | none => rtpmapsOf as t
    else rtpmapsOf as t
  | .property _ :: as, t => rtpmapsOf as t

/-- attrs.rs 158-166 `parse_fmtp_value`: payload type and parameters. -/
def parseFmtp (value : Str) : Option (Nat × Str) :=
  match splitOnce ' ' value with
  | none => none
  | some (p, rest) => (parseDec 255 p).map (fun pt => (pt, trim rest))

/-- attrs.rs 434-446 `fmtp_iter`, `fmtp_for` -/
def fmtpFor (pt : Nat) : List Attribute → Option Str
  | [] => none
  | .value name value :: as =>
    if name = "fmtp".toList then
      match parseFmtp value with
      | some (p, params) => if p = pt then some params else fmtpFor pt as
      | none => fmtpFor pt as
    else fmtpFor pt as
  | .property _ :: as => fmtpFor pt as

/-- The attributes that `set_fmtp` leaves (attrs.rs 452-463). -/
def keepsFmtp (pt : Nat) : Attribute → Bool
  | .value name value => !(decide (name = "fmtp".toList) && decide (firstPt value = some pt))
  | .property _ => true

/-- attrs.rs 451-470 `set_fmtp` -/
def setFmtp (pt : Nat) (params : Str) (attrs : List Attribute) : List Attribute :=
  attrs.filter (keepsFmtp pt) ++ [.value "fmtp".toList (showNat pt ++ ' ' :: trim params)]

/-- attrs.rs 84-89 `parse_value_attr` -/
def valueAttr (key : Str) : List Attribute → Option Str
  | [] => none
  | .value name value :: as => if name = key then some value else valueAttr key as
  | .property _ :: as => valueAttr key as

/-- attrs.rs 91-97 `set_value_attr_unique` -/
def setValueAttr (key value : Str) (attrs : List Attribute) : List Attribute :=
  attrs.filter (fun a =>
    match a with
    | .value name _ => decide (name ≠ key)
    | .property _ => true) ++ [.value key value]

/-- attrs.rs 472-474 `ptime` -/
def ptime (attrs : List Attribute) : Option Nat :=
  match valueAttr "ptime".toList attrs with
  | some v => parseDec 4294967295 v
  | none => none

/-! ## Direction (negotiate.rs) -/

/-- negotiate.rs 46-57 -/
inductive Dir
  | sendrecv | sendonly | recvonly | inactive
  deriving DecidableEq, Repr

/-- The word in the attribute (negotiate.rs 312-317). -/
def Dir.word : Dir → Str
  | .sendrecv => "sendrecv".toList
  | .sendonly => "sendonly".toList
  | .recvonly => "recvonly".toList
  | .inactive => "inactive".toList

/-- negotiate.rs 60-71 `from_attribute` -/
def Dir.ofAttribute : Attribute → Option Dir
  | .property name =>
    if name = "sendrecv".toList then some .sendrecv
    else if name = "sendonly".toList then some .sendonly
    else if name = "recvonly".toList then some .recvonly
    else if name = "inactive".toList then some .inactive
    else none
  | .value _ _ => none

/-- negotiate.rs 418-420 `extract_direction` -/
def extractDirection (attrs : List Attribute) : Option Dir := attrs.findSome? Dir.ofAttribute

/-- negotiate.rs 74-81 `reverse` -/
def Dir.reverse : Dir → Dir
  | .sendrecv => .sendrecv
  | .sendonly => .recvonly
  | .recvonly => .sendonly
  | .inactive => .inactive

/-- negotiate.rs 90-103 `is_compatible_with` -/
def Dir.compatible : Dir → Dir → Bool
  | .inactive, .inactive => true
  | .inactive, _ => false
  | _, .inactive => false
  | .sendrecv, _ => true
  | _, .sendrecv => true
  | .sendonly, .recvonly => true
  | .recvonly, .sendonly => true
  | _, _ => false

/-- negotiate.rs 106-121 `negotiate` -/
def Dir.negotiate (a b : Dir) : Option Dir :=
  if !a.compatible b then none
  else
    some (match a, b with
      | .inactive, _ => .inactive
      | _, .inactive => .inactive
      | .sendrecv, d => d
      | d, .sendrecv => d
      | .sendonly, .recvonly => .sendonly
      | .recvonly, .sendonly => .recvonly
      | .sendonly, .sendonly => .sendonly
      | .recvonly, .recvonly => .recvonly)

/-! ## Negotiation (negotiate.rs) -/

/-- negotiate.rs 14-24 -/
inductive NegErr
  | noCommonCodec | incompatibleDirection | missingStream | invalidSdp
  deriving DecidableEq, Repr

/-- negotiate.rs 438-447 `is_rtp_protocol` -/
def isRtp : Protocol → Bool
  | .rtpAvp | .rtpSavp | .rtpSavpf | .udpTlsRtpSavpf | .tcpTlsRtpSavpf => true
  | .udp | .tcp | .other _ => false

/-- negotiate.rs 449-456 `parse_payload_type` -/
def parsePayload (fmt : Str) : Option Nat :=
  match parseDec 65535 fmt with
  | some n => if n > 127 then none else some n
  | none => none

/-- negotiate.rs 458-464 `local_supports_static_pt` -/
def listed (m : Media) (pt : Nat) : Bool := m.formats.any (fun f => parsePayload f == some pt)

/-- negotiate.rs 466-486 `find_matching_dynamic_rtpmap` -/
def matchingRtpmap (l : Media) (r : RtpMap) : Option RtpMap :=
  (l.rtpmaps.map (·.2)).find? (fun x =>
    listed l x.payload && eqIgnoreCase r.encoding x.encoding && r.clock == x.clock && r.params == x.params)

/-- One iteration of negotiate.rs 345-388 `find_common_formats`. -/
def commonFormat (o l : Media) (fmt : Str) : Option (Str × Option RtpMap) :=
  if isRtp o.protocol then
    match parsePayload fmt with
    | none => none
    | some pt =>
      if pt < 96 then if listed l pt then some (fmt, Tbl.get l.rtpmaps pt) else none
      else
        match Tbl.get o.rtpmaps pt with
        | none => none
        | some r =>
          match matchingRtpmap l r with
          | none => none
          | some x => some (fmt, some { x with payload := pt })
  else if l.formats.contains fmt then some (fmt, none) else none

/-- negotiate.rs 338-391 `find_common_formats` -/
def commonFormats (o l : Media) : List (Str × Option RtpMap) := o.formats.filterMap (commonFormat o l)

/-- negotiate.rs 393-415 `create_rejected_media` -/
def rejectedMedia (o : Media) : Media :=
  { kind := o.kind, port := 0, numPorts := o.numPorts, protocol := o.protocol,
    formats := if o.formats.isEmpty then ["0".toList] else o.formats }

/-- negotiate.rs 422-436 `base_answer_media` -/
def baseAnswer (o : Media) (port : Nat) : Media :=
  { kind := o.kind, port := port, numPorts := o.numPorts, protocol := o.protocol }

/-- negotiate.rs 262-276 -/
def addFormats : List (Str × Option RtpMap) → Media → Option Media
  | [], a => some a
  | (fmt, map) :: fs, a =>
    match a.addFormatToken fmt with
    | none => none
    | some a' =>
      match map with
      | none => addFormats fs a'
      | some r =>
        match a'.addRtpmap r with
        | none => none
        | some a'' => addFormats fs a''

/-- negotiate.rs 289-299 -/
def addFmtps (o l : Media) : List (Str × Option RtpMap) → List Attribute → List Attribute
  | [], as => as
  | (fmt, _) :: fs, as =>
    match parsePayload fmt with
    | none => addFmtps o l fs as
    | some pt =>
      match fmtpFor pt l.attributes with
      | some params => addFmtps o l fs (setFmtp pt params as)
      | none =>
        match fmtpFor pt o.attributes with
        | some params => addFmtps o l fs (setFmtp pt params as)
        | none => addFmtps o l fs as

/-- negotiate.rs 308-312 -/
def addPtime (o l : Media) (as : List Attribute) : List Attribute :=
  match ptime l.attributes with
  | some ms => setValueAttr "ptime".toList (showNat ms) as
  | none =>
    match ptime o.attributes with
    | some ms => setValueAttr "ptime".toList (showNat ms) as
    | none => as

/-- negotiate.rs 248-253: `unwrap_or(SendRecv)`. -/
def dirOf (attrs : List Attribute) : Dir :=
  match extractDirection attrs with
  | some d => d
  | none => .sendrecv

/-- negotiate.rs 256-331: the part of `negotiate_media` after the common formats were found. -/
def buildAnswer (o l : Media) (fs : List (Str × Option RtpMap)) : Except NegErr Media :=
  match (dirOf o.attributes).reverse.negotiate (dirOf l.attributes) with
  | none => .error .incompatibleDirection
  | some d =>
    match addFormats fs (baseAnswer o l.port) with
    | none => .error .invalidSdp
    | some a =>
      match ({ a with attributes := addPtime o l (addFmtps o l fs a.attributes) }).addProperty d.word with
      | none => .error .invalidSdp
      | some a' =>
        match l.connection with
        | some c => .ok { a' with connection := some c }
        | none => .ok a'

/-- negotiate.rs 225-331 `negotiate_media` -/
def negotiateMedia (o : Media) (caps : Session) : Except NegErr Media :=
  match caps.findMedia o.kind with
  | none => .error .missingStream
  | some l =>
    if o.protocol ≠ l.protocol then .error .noCommonCodec
    else if (commonFormats o l).isEmpty then .error .noCommonCodec
    else buildAnswer o l (commonFormats o l)

/-- negotiate.rs 191-217: the loop of `negotiate_answer`. -/
def answerLoop (caps : Session) : List Media → List MediaType → Session → Except NegErr Session
  | [], _, b => .ok b
  | o :: os, accepted, b =>
    if accepted.contains o.kind then
      match b.addMedia (rejectedMedia o) with
      | none => .error .invalidSdp
      | some b' => answerLoop caps os accepted b'
    else
      match negotiateMedia o caps with
      | .ok a =>
        match b.addMedia a with
        | none => .error .invalidSdp
        | some b' => answerLoop caps os (accepted ++ [o.kind]) b'
      | .error .noCommonCodec | .error .missingStream =>
        match b.addMedia (rejectedMedia o) with
        | none => .error .invalidSdp
        | some b' => answerLoop caps os accepted b'
      | .error e => .error e

/-- negotiate.rs 172-183: the lines of the session. `sessionId` is the time in seconds, as text. -/
def answerBase (sessionId : Str) (addr : Str) (caps : Session) : Option Session :=
  match ({} : Session).setOrigin caps.origin.username sessionId addr with
  | none => none
  | some b =>
    match b.setName caps.name with
    | none => none
    | some b =>
      match b.setConnection addr with
      | none => none
      | some b => some (b.setTime 0 0)

/-- negotiate.rs 167-222 `negotiate_answer` -/
def negotiateAnswer (sessionId : Str) (offer : Session) (addr : Str) (caps : Session) : Except NegErr Session :=
  match answerBase sessionId addr caps with
  | none => .error .invalidSdp
  | some b => answerLoop caps offer.media [] b

end Siphon.Sdp
