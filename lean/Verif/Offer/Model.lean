import Verif.Base.Table
import Verif.Base.Num
import Verif.Base.Slice
/-!
# Model: the offer/answer engine of sip-core (`crates/sip-core/src/sdp_offer_answer.rs`)

The engine works on the descriptions of `crates/sip-core/src/sdp.rs` (another type than that of sip-sdp, which is
modelled in `Verif/Sdp`).  Files: OA = `sdp_offer_answer.rs`, SDP = `sdp.rs`.  Parts that are only copied or left empty are
kept as texts.  An iteration over a `HashMap` may come in any order: the order is an argument (`Order`).  The sums
`current_port + 2` and `version + 1` panic when they overflow, as in builds with overflow checks.
-/
namespace Siphon.Offer

/-- SDP 595-601 `Direction` -/
inductive Dir | sendrecv | sendonly | recvonly | inactive
  deriving DecidableEq, Repr

/-- SDP 604-611 `as_str` -/
def Dir.asStr : Dir → Str
  | .sendrecv => "sendrecv".toList
  | .sendonly => "sendonly".toList
  | .recvonly => "recvonly".toList
  | .inactive => "inactive".toList

/-- SDP 613-621 `parse` -/
def Dir.parse (s : Str) : Option Dir :=
  if s = "sendrecv".toList then some .sendrecv
  else if s = "sendonly".toList then some .sendonly
  else if s = "recvonly".toList then some .recvonly
  else if s = "inactive".toList then some .inactive
  else none

/-- SDP 555-559 `Attribute` -/
structure Attr where
  name : Str
  value : Option Str
  deriving DecidableEq, Repr

/-- SDP 715-721 `RtpMap` -/
structure RtpMap where
  payload : Nat
  name : Str
  clock : Nat
  params : Option Str
  deriving DecidableEq, Repr

/-- SDP 562-592 `MediaDescription`.  Titles, connections, bandwidths, keys, the `rtcp` attribute and the capability set
stand as texts. -/
structure Media where
  media : Str
  port : Nat
  portCount : Option Nat := none
  proto : Str
  fmt : List Str
  title : Option Str := none
  connection : Option Str := none
  bandwidth : List Str := []
  key : Option Str := none
  attributes : List Attr
  mid : Option Str := none
  rtcp : Option Str := none
  capabilities : Option Str := none
  deriving DecidableEq, Repr

/-- SDP 336-344 `Origin` -/
structure Origin where
  username : Str
  sessId : Str
  sessVersion : Str
  nettype : Str
  addrtype : Str
  address : Str
  deriving DecidableEq, Repr

/-- SDP 292-333 `SdpSession`.  `other` stands for the lines that the engine neither reads nor writes (i, u, e, p, b, r, z,
k lines, groups and capabilities). -/
structure Session where
  origin : Origin
  name : Str
  connection : Option (Str × Str × Str) := none
  timing : List (Nat × Nat) := [(0, 0)]
  attributes : List Attr := []
  other : List Str := []
  media : List Media := []
  deriving DecidableEq, Repr

/-- SDP 179-202 `validate_string` (CR, LF and NUL are control characters). -/
def fine (s : Str) (max : Nat) : Bool := utf8Len s ≤ max && !s.any (fun c => isControl c && c != '\t')

/-- SDP 2354-2364: the third part of an encoding; `none` is an error. -/
def paramsOf : List Str → Option (Option Str)
  | p :: _ => if fine p 16 then some (some p) else none
  | [] => some none

/-- SDP 2333-2372 `RtpMap::parse` -/
def RtpMap.parse (v : Str) : Option RtpMap :=
  match splitOnce ' ' v with
  | none => none
  | some (a, b) =>
    match parseDec 255 a with
    | none => none
    | some pt =>
      match splitChar '/' b with
      | n :: c :: rest =>
        if pt > 127 then none
        else if !fine n 64 then none
        else
          match parseDec 4294967295 c with
          | none => none
          | some clock =>
            if clock = 0 then none
            else if clock > 1000000000 then none
            else
              match paramsOf rest with
              | none => none
              | some ps => some ⟨pt, n, clock, ps⟩
      | _ => none

/-- SDP 2375-2387 `to_value` -/
def RtpMap.show (r : RtpMap) : Str :=
  match r.params with
  | some p => showNat r.payload ++ ' ' :: r.name ++ '/' :: showNat r.clock ++ '/' :: p
  | none => showNat r.payload ++ ' ' :: r.name ++ '/' :: showNat r.clock

/-- SDP 2417-2431 `Fmtp::parse`: the format and the parameters. -/
def fmtpParse (v : Str) : Option (Str × Str) :=
  match splitOnce ' ' v with
  | none => none
  | some (f, p) => if fine f 16 && fine p 1024 then some (f, p) else none

/-- OA 266-271 `CodecInfo`; `fmtp` is not used by the engine. -/
structure Codec where
  name : Str
  clock : Nat
  channels : Option Nat
  deriving DecidableEq, Repr

/-- OA 318-334 `matches` -/
def Codec.matches (c : Codec) (r : RtpMap) : Bool :=
  if !eqIgnoreCase c.name r.name then false
  else if c.clock ≠ r.clock then false
  else
    match c.channels, r.params with
    | some n, some p => parseDec 65535 p == some n
    | some n, none => n == 1
    | none, some _ => false
    | none, none => true

/-! ## Preconditions (RFC 3312) -/

/-- `char::to_lowercase` where the result is ASCII: the capital letters and the Kelvin sign (U+212A).  No other character
has an ASCII letter as the whole of its lower case, so the texts compared with ASCII words are compared rightly. -/
def lowerU (c : Char) : Char := if c = '\u212A' then 'k' else c.toLower

/-- `s.to_lowercase() == w` for an ASCII word. -/
def lowers (s : Str) (w : String) : Bool := s.map lowerU == w.toList

/-- SDP 978-983 `PreconditionType` -/
inductive Kind | qos | other (s : Str)
  deriving DecidableEq, Repr

/-- SDP 993-998 -/
def Kind.parse (s : Str) : Kind := if lowers s "qos" then .qos else .other s

/-- SDP 986-991 -/
def Kind.asStr : Kind → Str
  | .qos => "qos".toList
  | .other s => s

/-- SDP 1011-1022 `StrengthTag` -/
inductive Strength | mandatory | optional | none | failure | unknown
  deriving DecidableEq, Repr

/-- SDP 1035-1044 -/
def Strength.parse (s : Str) : Option Strength :=
  if lowers s "mandatory" then some .mandatory
  else if lowers s "optional" then some .optional
  else if lowers s "none" then some .none
  else if lowers s "failure" then some .failure
  else if lowers s "unknown" then some .unknown
  else Option.none

/-- SDP 1025-1033 -/
def Strength.asStr : Strength → Str
  | .mandatory => "mandatory".toList
  | .optional => "optional".toList
  | .none => "none".toList
  | .failure => "failure".toList
  | .unknown => "unknown".toList

/-- SDP 1058-1065 `StatusType` -/
inductive Status | e2e | near | remote
  deriving DecidableEq, Repr

/-- SDP 1076-1083 -/
def Status.parse (s : Str) : Option Status :=
  if lowers s "e2e" then some .e2e
  else if lowers s "local" then some .near
  else if lowers s "remote" then some .remote
  else none

/-- SDP 1068-1074 -/
def Status.asStr : Status → Str
  | .e2e => "e2e".toList
  | .near => "local".toList
  | .remote => "remote".toList

/-- SDP 1086-1092 `invert` -/
def Status.invert : Status → Status
  | .e2e => .e2e
  | .near => .remote
  | .remote => .near

/-- SDP 1105-1114 `PreconditionDirection` -/
inductive Way | send | recv | both | none
  deriving DecidableEq, Repr

/-- SDP 1126-1134 -/
def Way.parse (s : Str) : Option Way :=
  if lowers s "send" then some .send
  else if lowers s "recv" then some .recv
  else if lowers s "sendrecv" then some .both
  else if lowers s "none" then some .none
  else Option.none

/-- SDP 1117-1124 -/
def Way.asStr : Way → Str
  | .send => "send".toList
  | .recv => "recv".toList
  | .both => "sendrecv".toList
  | .none => "none".toList

/-- SDP 1137-1144 `invert` -/
def Way.invert : Way → Way
  | .send => .recv
  | .recv => .send
  | .both => .both
  | .none => .none

/-- SDP 1161-1165 `CurrentStatus` (and 1263-1267 `ConfirmStatus`, which has the same fields). -/
structure Curr where
  kind : Kind
  status : Status
  way : Way
  deriving DecidableEq, Repr

/-- SDP 1172-1189 (and 1274-1291) `parse` -/
def Curr.parse (v : Str) : Option Curr :=
  match splitWhitespace v with
  | [a, b, c] =>
    match Status.parse b with
    | none => none
    | some s =>
      match Way.parse c with
      | none => none
      | some w => some ⟨Kind.parse a, s, w⟩
  | _ => none

/-- SDP 1192-1200 (and 1294-1302) `Display` -/
def Curr.show (c : Curr) : Str := c.kind.asStr ++ ' ' :: c.status.asStr ++ ' ' :: c.way.asStr

/-- SDP 1210-1215 `DesiredStatus` -/
structure Des where
  kind : Kind
  strength : Strength
  status : Status
  way : Way
  deriving DecidableEq, Repr

/-- SDP 1222-1242 `parse` -/
def Des.parse (v : Str) : Option Des :=
  match splitWhitespace v with
  | [a, b, c, d] =>
    match Strength.parse b with
    | none => none
    | some g =>
      match Status.parse c with
      | none => none
      | some s =>
        match Way.parse d with
        | none => none
        | some w => some ⟨Kind.parse a, g, s, w⟩
  | _ => none

/-- SDP 1245-1253 `Display` -/
def Des.show (d : Des) : Str :=
  d.kind.asStr ++ ' ' :: d.strength.asStr ++ ' ' :: d.status.asStr ++ ' ' :: d.way.asStr

/-- OA 809-829 (and SDP 1777-1840 `find_current_status`, `find_confirm_status`): the readable values of the attributes with
this name. -/
def currsOf (name : String) (as : List Attr) : List Curr :=
  as.filterMap (fun a => if a.name = name.toList then a.value.bind Curr.parse else none)

/-- OA 816-822 (and SDP 1799-1818 `find_desired_status`) -/
def desOf (as : List Attr) : List Des :=
  as.filterMap (fun a => if a.name = "des".toList then a.value.bind Des.parse else none)

/-- SDP 1974-1992 `direction_meets_requirement` -/
def meets : Way → Way → Bool
  | _, .none => true
  | c, .send => c = .send || c = .both
  | c, .recv => c = .recv || c = .both
  | c, .both => c = .both

/-- SDP 1846-1883 `are_preconditions_met`, for the attributes of the stream with the index (none if there is no such
stream). -/
def preconditionsMet (as : List Attr) : Bool :=
  (desOf as).all (fun d =>
    if d.strength ≠ .mandatory then true
    else
      match (currsOf "curr" as).find? (fun c => c.kind = d.kind && c.status = d.status) with
      | some c => meets c.way d.way
      | none => false)

/-! ## Answers -/

/-- OA 70-82 `AnswerOptions` -/
structure Options where
  address : Str
  basePort : Nat
  audio : List Codec
  video : List Codec
  direction : Option Dir := none
  reject : List Nat := []
  username : Str
  sessionId : Str
  qosLocal : Option Way := none
  qosRemote : Option Way := none
  upgrade : Bool := false
  deriving DecidableEq, Repr

/-- OA 841-852: the status of the answer. -/
def currWay (o : Options) (s : Status) (w : Way) : Way :=
  match s with
  | .near => (match o.qosLocal with | some x => x | none => .none)
  | .remote => (match o.qosRemote with | some x => x | none => .none)
  | .e2e => w

/-- OA 836-865: the answer to a `curr` attribute. -/
def answerCurr (o : Options) (c : Curr) : Option Attr :=
  if c.kind ≠ .qos then none
  else some ⟨"curr".toList, some (Curr.show ⟨c.kind, c.status.invert, currWay o c.status.invert c.way.invert⟩)⟩

/-- OA 867-896: the answer to a `des` attribute. -/
def answerDes (o : Options) (d : Des) : Option Attr :=
  if d.kind ≠ .qos then none
  else
    some ⟨"des".toList, some (Des.show
      ⟨d.kind, if o.upgrade && decide (d.strength = .optional) then .mandatory else d.strength, d.status.invert, d.way.invert⟩)⟩

/-- OA 898-917: the answer to a `conf` attribute. -/
def answerConf (c : Curr) : Option Attr :=
  if c.kind ≠ .qos then none
  else some ⟨"conf".toList, some (Curr.show ⟨c.kind, c.status.invert, c.way.invert⟩)⟩

/-- OA 799-918 `handle_preconditions`: the attributes that are added. -/
def answerPreconditions (o : Options) (as : List Attr) : List Attr :=
  (currsOf "curr" as).filterMap (answerCurr o) ++ (desOf as).filterMap (answerDes o) ++
    (currsOf "conf" as).filterMap answerConf

/-- OA 656-696 `get_static_payload_rtpmap` -/
def staticMap (p : Str) : Option RtpMap :=
  if p = "0".toList then some ⟨0, "PCMU".toList, 8000, none⟩
  else if p = "8".toList then some ⟨8, "PCMA".toList, 8000, none⟩
  else if p = "3".toList then some ⟨3, "GSM".toList, 8000, none⟩
  else if p = "4".toList then some ⟨4, "G723".toList, 8000, none⟩
  else if p = "9".toList then some ⟨9, "G722".toList, 8000, none⟩
  else if p = "18".toList then some ⟨18, "G729".toList, 8000, none⟩
  else none

/-- OA 633-641: the maps of the attributes. -/
def explicitMaps : List Attr → Tbl Str RtpMap → Tbl Str RtpMap
  | [], t => t
  | a :: as, t =>
    if a.name = "rtpmap".toList then
      match a.value.bind RtpMap.parse with
      | some r => explicitMaps as (t.insert (showNat r.payload) r)
      | none => explicitMaps as t
    else explicitMaps as t

/-- OA 644-650: the static maps of the formats. -/
def staticMaps : List Str → Tbl Str RtpMap → Tbl Str RtpMap
  | [], t => t
  | f :: fs, t =>
    if t.contains f then staticMaps fs t
    else
      match staticMap f with
      | some r => staticMaps fs (t.insert f r)
      | none => staticMaps fs t

/-- OA 630-653 `extract_rtpmaps` -/
def mapsOf (m : Media) : Tbl Str RtpMap := staticMaps m.fmt (explicitMaps m.attributes [])

/-- The order in which a `HashMap` is gone through: any order of its entries. -/
structure Order where
  run : Tbl Str RtpMap → List (Str × RtpMap)
  perm : ∀ t, (run t).Perm t

/-- OA 699-712 `find_fmtp_for_payload` -/
def fmtpFor (as : List Attr) (p : Str) : Option Str :=
  match as with
  | [] => none
  | a :: as =>
    if a.name = "fmtp".toList then
      match a.value with
      | some v =>
        match fmtpParse v with
        | some (f, _) => if f = p then some v else fmtpFor as p
        | none => fmtpFor as p
      | none => fmtpFor as p
    else fmtpFor as p

/-- OA 715-724 `get_media_direction` -/
def directionOf : List Attr → Dir
  | [] => .sendrecv
  | a :: as =>
    if a.value.isNone then
      match Dir.parse a.name with
      | some d => d
      | none => directionOf as
    else directionOf as

/-- OA 727-734 `negotiate_direction` -/
def Dir.answer : Dir → Dir
  | .sendrecv => .sendrecv
  | .sendonly => .recvonly
  | .recvonly => .sendonly
  | .inactive => .inactive

/-- OA 531-537: the codecs for the kind of the stream. -/
def codecsFor (o : Options) (media : Str) : Option (List Codec) :=
  if media = "audio".toList then some o.audio
  else if media = "video".toList then some o.video
  else none

/-- OA 561-575: the attributes for the formats. -/
def codecAttrs (as : List Attr) : List (Str × RtpMap) → List Attr
  | [] => []
  | (p, r) :: t =>
    ⟨"rtpmap".toList, some r.show⟩ ::
      ((match fmtpFor as p with | some v => [⟨"fmtp".toList, some v⟩] | none => []) ++ codecAttrs as t)

/-- OA 577-587: the direction of the answer. -/
def answerDir (o : Options) (as : List Attr) : Dir :=
  match o.direction with
  | some d => d
  | none => (directionOf as).answer

/-- OA 520-608 `negotiate_media`; `none` is `NoCommonCodecs`. -/
def negotiateMedia (ord : Order) (m : Media) (o : Options) (port : Nat) : Option Media :=
  match codecsFor o m.media with
  | none => none
  | some codecs =>
    let common := (ord.run (mapsOf m)).filter (fun e => codecs.any (fun c => c.matches e.2))
    if common.isEmpty then none
    else
      let dir := answerDir o m.attributes
      some { media := m.media, port := port, proto := m.proto, fmt := common.map (·.1),
             attributes := codecAttrs m.attributes common ++ [⟨dir.asStr, none⟩] ++ answerPreconditions o m.attributes,
             mid := m.mid, rtcp := m.rtcp, capabilities := m.capabilities }

/-- OA 611-627 `create_rejected_media` -/
def rejected (m : Media) : Media :=
  { media := m.media, port := 0, proto := m.proto, fmt := m.fmt, attributes := [], mid := m.mid, capabilities := m.capabilities }

/-- OA 491-514: the loop over the streams of the offer.  `ord` is the order of the map of each stream. -/
def answerMedia (ord : Nat → Order) (o : Options) : Nat → Nat → List Media → Run (List Media)
  | _, _, [] => .done []
  | i, port, m :: ms =>
    if o.reject.contains i then
      (answerMedia ord o (i + 1) port ms).bind (fun r => .done (rejected m :: r))
    else
      match negotiateMedia (ord i) m o port with
      | some a =>
        if port + 2 > 65535 then .panic
        else (answerMedia ord o (i + 1) (port + 2) ms).bind (fun r => .done (a :: r))
      | none => (answerMedia ord o (i + 1) port ms).bind (fun r => .done (rejected m :: r))

/-- OA 25 -/
def MAX_MEDIA_STREAMS : Nat := 20

/-- OA 456-517 `generate_answer`; `none` is the error for too many streams. -/
def generateAnswer (ord : Nat → Order) (offer : Session) (o : Options) : Run (Option Session) :=
  if offer.media.length > MAX_MEDIA_STREAMS then .done none
  else
    (answerMedia ord o 0 o.basePort offer.media).bind (fun ms => .done (some
      { origin := ⟨o.username, o.sessionId, "0".toList, "IN".toList, "IP4".toList, o.address⟩, name := offer.name,
        connection := some ("IN".toList, "IP4".toList, o.address), timing := offer.timing, media := ms }))

/-! ## Hold and resume -/

/-- OA 740-742, 771-773: the next version; a version that is not a number stays. -/
def nextVersion (v : Str) : Run Str :=
  match parseDec 18446744073709551615 v with
  | none => .done v
  | some n => if n + 1 > 18446744073709551615 then .panic else .done (showNat (n + 1))

/-- OA 754-761, 785-792: the direction is replaced. -/
def setDirection (d : Dir) (m : Media) : Media :=
  { m with attributes := m.attributes.filter (fun a => a.value.isSome || (Dir.parse a.name).isNone) ++ [⟨d.asStr, none⟩] }

/-- OA 747-752 -/
def Dir.hold : Dir → Dir
  | .sendrecv => .sendonly
  | .recvonly => .inactive
  | .sendonly => .sendonly
  | .inactive => .inactive

/-- OA 778-783 -/
def Dir.resume : Dir → Dir
  | .sendonly => .sendrecv
  | .inactive => .recvonly
  | .sendrecv => .sendrecv
  | .recvonly => .recvonly

/-- The session with a new version and new directions. -/
def redirect (f : Dir → Dir) (s : Session) : Run Session :=
  (nextVersion s.origin.sessVersion).bind (fun v => .done
    { s with origin := { s.origin with sessVersion := v },
             media := s.media.map (fun m => setDirection (f (directionOf m.attributes)) m) })

/-- OA 737-765 `create_hold_offer` -/
def holdOffer (s : Session) : Run Session := redirect Dir.hold s

/-- OA 768-796 `create_resume_offer` -/
def resumeOffer (s : Session) : Run Session := redirect Dir.resume s

end Siphon.Offer
