import Verif.Sdp.Model
import Verif.Core.Uri
/-!
# Model: reading and writing session descriptions (sip-sdp parse.rs and serialize.rs)

Files are those of `crates/sip-sdp/src`. The combinators are those of nom 7 (`complete`): a parser takes a text and gives a
value and the remaining text, or fails without a commitment (no parser here uses `cut`), so failure is `none`. The different
error values are not told apart.
-/
namespace Siphon.Sdp

/-! ## Combinators -/

/-- nom `tag` -/
def tag (t s : Str) : Option Str := stripPrefix t s

/-- nom `take_till` (complete): never fails, may take nothing. -/
def takeTill (p : Char → Bool) (s : Str) : Str × Str := (s.takeWhile (fun c => !p c), s.dropWhile (fun c => !p c))

/-- `c == '\r' || c == '\n'` -/
def isEol (c : Char) : Bool := c == '\r' || c == '\n'

/-- `c == ' ' || c == '\r' || c == '\n'` -/
def isGap (c : Char) : Bool := c == ' ' || c == '\r' || c == '\n'

/-- ' ' or '\t' (nom `space1`) -/
def isBlank (c : Char) : Bool := c == ' ' || c == '\t'

/-- nom `space1` -/
def space1 : Str → Option Str
  | [] => none
  | c :: s => if isBlank c then some (s.dropWhile isBlank) else none

/-- nom `map_res(digit1, str::parse)`; `max` is the largest value of the type. -/
def number (max : Nat) (s : Str) : Option (Nat × Str) :=
  match s.takeWhile isDigit with
  | [] => none
  | c :: cs => (parseDec max (c :: cs)).map (fun n => (n, s.dropWhile isDigit))

/-- nom `opt(line_ending)` -/
def optEol : Str → Str
  | '\n' :: s => s
  | '\r' :: '\n' :: s => s
  | s => s

/-! ## Lines -/

/-- parse.rs 126-142. The media block (parse.rs 144-157) is a media description without maps. -/
inductive SdpLine
  | version (n : Nat)
  | origin (o : Origin)
  | name (t : Str)
  | info (t : Str)
  | uri (t : Str)
  | email (t : Str)
  | phone (t : Str)
  | connection (c : Connection)
  | bandwidth (b : Bandwidth)
  | time (start stop : Nat)
  | repeat (r : RepeatTime)
  | zone (z : List Zone)
  | key (t : Str)
  | attribute (a : Attribute)
  | media (m : Media)
  deriving DecidableEq, Repr

/-- The rest of a line, trimmed (parse.rs 216-266). -/
def restOfLine (s : Str) : Str × Str := ((trim (takeTill isEol s).1), (takeTill isEol s).2)

/-- parse.rs 507-514 `parse_nettype`, `parse_addrtype`, each with the `space1` after it, and then the rest of the line. -/
def parseAddress (s : Str) : Option ((Bool × Str) × Str) :=
  match tag "IN".toList s with
  | none => none
  | some s =>
    match space1 s with
    | none => none
    | some s =>
      match tag "IP4".toList s with
      | some s =>
        match space1 s with
        | none => none
        | some s => some ((false, (restOfLine s).1), (restOfLine s).2)
      | none =>
        match tag "IP6".toList s with
        | none => none
        | some s =>
          match space1 s with
          | none => none
          | some s => some ((true, (restOfLine s).1), (restOfLine s).2)

/-- `terminated(take_till(|c| c == ' '), space1)` -/
def word (s : Str) : Option (Str × Str) :=
  (space1 (takeTill (· == ' ') s).2).map (fun r => ((takeTill (· == ' ') s).1, r))

/-- parse.rs 188-213 `parse_o_line`, after the tag. -/
def parseOrigin (s : Str) : Option (Origin × Str) :=
  match word s with
  | none => none
  | some (u, s) =>
    match word s with
    | none => none
    | some (i, s) =>
      match word s with
      | none => none
      | some (v, s) => (parseAddress s).map (fun p => (⟨u, i, v, p.1.1, p.1.2⟩, p.2))

/-- parse.rs 268-285 `parse_c_line`, after the tag. -/
def parseConnection (s : Str) : Option (Connection × Str) := (parseAddress s).map (fun p => (⟨p.1.1, p.1.2⟩, p.2))

/-- parse.rs 288-302 `parse_b_line`, after the tag. -/
def parseBandwidth (s : Str) : Option (Bandwidth × Str) :=
  match (takeTill (· == ':') s).2 with
  | ':' :: r => (number 4294967295 r).map (fun p => (⟨(takeTill (· == ':') s).1, p.1⟩, p.2))
  | _ => none

/-- parse.rs 305-321 `parse_t_line`, after the tag. -/
def parseTime (s : Str) : Option ((Nat × Nat) × Str) :=
  match number 18446744073709551615 s with
  | none => none
  | some (a, s) =>
    match space1 s with
    | none => none
    | some s => (number 18446744073709551615 s).map (fun p => ((a, p.1), p.2))

/-- parse.rs 328-338: the words of a line `r=`. -/
def repeatOf : List Str → RepeatTime
  | [] => ⟨[], [], []⟩
  | [a] => ⟨a, [], []⟩
  | a :: b :: os => ⟨a, b, os⟩

/-- parse.rs 348-364: the words of a line `z=`, in pairs. -/
def zonesOf : List Str → List Zone
  | [] => []
  | [a] => [⟨a, []⟩]
  | a :: b :: ws => ⟨a, b⟩ :: zonesOf ws

/-- parse.rs 398-424 `parse_a_line`, after the tag. -/
def parseAttribute (s : Str) : Attribute × Str :=
  match (takeTill (fun c => c == ':' || isEol c) s).2 with
  | ':' :: r => (.value (takeTill (fun c => c == ':' || isEol c) s).1 (trimEnd (takeTill isEol r).1), (takeTill isEol r).2)
  | _ => (.property (restOfLine s).1, (restOfLine s).2)

/-- parse.rs 455-468 `parse_media_type` -/
def mediaType (name : Str) : MediaType :=
  if name = "audio".toList then .audio
  else if name = "video".toList then .video
  else if name = "text".toList then .text
  else if name = "application".toList then .application
  else if name = "message".toList then .message
  else .other name

/-- parse.rs 471-483 `parse_port` -/
def parsePort (s : Str) : Option ((Nat × Option Nat) × Str) :=
  match number 65535 s with
  | none => none
  | some (p, '/' :: r) =>
    match number 65535 r with
    | some (n, r') => some ((p, some n), r')
    | none => some ((p, none), '/' :: r)
  | some (p, r) => some ((p, none), r)

/-- parse.rs 486-505 `parse_protocol` -/
def parseProtocol (s : Str) : Protocol × Str :=
  match tag "UDP/TLS/RTP/SAVPF".toList s with
  | some r => (.udpTlsRtpSavpf, r)
  | none =>
  match tag "TCP/TLS/RTP/SAVPF".toList s with
  | some r => (.tcpTlsRtpSavpf, r)
  | none =>
  match tag "RTP/SAVPF".toList s with
  | some r => (.rtpSavpf, r)
  | none =>
  match tag "RTP/SAVP".toList s with
  | some r => (.rtpSavp, r)
  | none =>
  match tag "RTP/AVP".toList s with
  | some r => (.rtpAvp, r)
  | none =>
  match tag "UDP".toList s with
  | some r => (.udp, r)
  | none =>
  match tag "TCP".toList s with
  | some r => (.tcp, r)
  | none => (.other (takeTill isGap s).1, (takeTill isGap s).2)

/-- The loop of nom `separated_list0` with `space1` and tokens up to a gap (parse.rs 430-437). The fuel bounds the number of
rounds; each consumes a character. -/
def tokens : Nat → Str → List Str × Str
  | 0, s => ([], s)
  | f + 1, s =>
    match space1 (takeTill isGap s).2 with
    | none => ([(takeTill isGap s).1], (takeTill isGap s).2)
    | some r => ((takeTill isGap s).1 :: (tokens f r).1, (tokens f r).2)

/-- parse.rs 421-452 `parse_m_line`, after the tag. -/
def parseMedia (s : Str) : Option (Media × Str) :=
  match space1 (takeTill isGap s).2 with
  | none => none
  | some s1 =>
    match parsePort s1 with
    | none => none
    | some ((port, num), s2) =>
      match space1 s2 with
      | none => none
      | some s3 =>
        match space1 (parseProtocol s3).2 with
        | none => none
        | some s4 =>
          some ({ kind := mediaType (takeTill isGap s).1, port := port, numPorts := num, protocol := (parseProtocol s3).1,
                  formats := (tokens (s4.length + 1) s4).1 }, (tokens (s4.length + 1) s4).2)

/-- parse.rs 164-182 `parse_line`: the alternatives differ in their tags. -/
def parseLine : Str → Option (SdpLine × Str)
  | 'v' :: '=' :: s => (number 255 s).map (fun p => (.version p.1, p.2))
  | 'o' :: '=' :: s => (parseOrigin s).map (fun p => (.origin p.1, p.2))
  | 's' :: '=' :: s => some (.name (restOfLine s).1, (restOfLine s).2)
  | 'i' :: '=' :: s => some (.info (restOfLine s).1, (restOfLine s).2)
  | 'u' :: '=' :: s => some (.uri (restOfLine s).1, (restOfLine s).2)
  | 'e' :: '=' :: s => some (.email (restOfLine s).1, (restOfLine s).2)
  | 'p' :: '=' :: s => some (.phone (restOfLine s).1, (restOfLine s).2)
  | 'c' :: '=' :: s => (parseConnection s).map (fun p => (.connection p.1, p.2))
  | 'b' :: '=' :: s => (parseBandwidth s).map (fun p => (.bandwidth p.1, p.2))
  | 't' :: '=' :: s => (parseTime s).map (fun p => (.time p.1.1 p.1.2, p.2))
  | 'r' :: '=' :: s => some (.repeat (repeatOf (splitWhitespace (takeTill isEol s).1)), (takeTill isEol s).2)
  | 'z' :: '=' :: s => some (.zone (zonesOf (splitWhitespace (takeTill isEol s).1)), (takeTill isEol s).2)
  | 'k' :: '=' :: s => some (.key (restOfLine s).1, (restOfLine s).2)
  | 'a' :: '=' :: s => some (.attribute (parseAttribute s).1, (parseAttribute s).2)
  | 'm' :: '=' :: s => (parseMedia s).map (fun p => (.media p.1, p.2))
  | _ => none

/-- parse.rs 160-162 `parse_sdp_lines`: nom `many0(terminated(parse_line, opt(line_ending)))`. The fuel bounds the number of
lines; each consumes two characters. -/
def parseLines : Nat → Str → List SdpLine × Str
  | 0, s => ([], s)
  | f + 1, s =>
    match parseLine s with
    | none => ([], s)
    | some (l, r) => (l :: (parseLines f (optEol r)).1, (parseLines f (optEol r)).2)

/-! ## Assembling (parse.rs 517-684 `build_session_description`) -/

/-- The local variables of `build_session_description`. -/
structure Parts where
  version : Option Nat := none
  origin : Option Origin := none
  name : Option Str := none
  info : Option Str := none
  uri : Option Str := none
  email : Option Str := none
  phone : Option Str := none
  connection : Option Connection := none
  bandwidth : List Bandwidth := []
  times : List TimeDesc := []
  current : Option TimeDesc := none
  zones : List Zone := []
  key : Option Str := none
  attributes : List Attribute := []
  blocks : List Media := []
  media : Option Media := none

/-- parse.rs 686-694 `normalize_repeat` -/
def validRepeat (r : RepeatTime) : Bool := !r.interval.isEmpty && !r.duration.isEmpty

/-- parse.rs 696-717 `normalize_time_zones` -/
def validZones (zs : List Zone) : Bool := !zs.isEmpty && !zs.any (fun z => z.time.isEmpty || z.offset.isEmpty)

/-- The finished one of two consecutive things (`take`, then `push`). -/
def flushTo {α : Type} (done : List α) : Option α → List α
  | some x => done ++ [x]
  | none => done

/-- parse.rs 540-631: one line. -/
def addLine (st : Parts) : SdpLine → Option Parts
  | .version v => some { st with version := some v }
  | .origin o => some { st with origin := some o }
  | .name t => some { st with name := some t }
  | .info t =>
    match st.media with
    | some m => some { st with media := some { m with title := some t } }
    | none => some { st with info := some t }
  | .uri t => some { st with uri := some t }
  | .email t => some { st with email := some t }
  | .phone t => some { st with phone := some t }
  | .connection c =>
    match st.media with
    | some m => some { st with media := some { m with connection := some c } }
    | none => some { st with connection := some c }
  | .bandwidth b =>
    match st.media with
    | some m => some { st with media := some { m with bandwidth := m.bandwidth ++ [b] } }
    | none => some { st with bandwidth := st.bandwidth ++ [b] }
  | .time a b => some { st with times := flushTo st.times st.current, current := some ⟨a, b, []⟩ }
  | .repeat r =>
    if !validRepeat r then none
    else
      match st.current with
      | some t => some { st with current := some { t with repeats := t.repeats ++ [r] } }
      | none => none
  | .zone z => if !validZones z then none else some { st with zones := st.zones ++ z }
  | .key t =>
    match st.media with
    | some m => some { st with media := some { m with key := some t } }
    | none => some { st with key := some t }
  | .attribute a =>
    match st.media with
    | some m =>
      if m.attributes.length ≥ 500 then none
      else some { st with media := some { m with attributes := m.attributes ++ [a] } }
    | none => if st.attributes.length ≥ 500 then none else some { st with attributes := st.attributes ++ [a] }
  | .media m => some { st with blocks := flushTo st.blocks st.media, media := some m }

/-- parse.rs 540-631: all lines. -/
def addLines : List SdpLine → Parts → Option Parts
  | [], st => some st
  | l :: ls, st =>
    match addLine st l with
    | none => none
    | some st' => addLines ls st'

/-- parse.rs 719-764 `validate_media_formats` -/
def validMedia (m : Media) : Bool :=
  !(m.kind == .other []) && !m.formats.isEmpty && !m.formats.any (·.isEmpty) &&
    (!isRtp m.protocol || m.formats.all (fun f => (parsePayload f).isSome))

/-- parse.rs 650-682: one media block. -/
def finishMedia (m : Media) : Option Media :=
  if validMedia m then some { m with rtpmaps := rtpmapsOf m.attributes [] } else none

/-- `collect::<Result<Vec<_>, _>>` -/
def finishAll : List Media → Option (List Media)
  | [] => some []
  | m :: ms =>
    match finishMedia m with
    | none => none
    | some m' => (finishAll ms).map (m' :: ·)

/-- parse.rs 633-684: after the last line. -/
def finish (st : Parts) : Option Session :=
  match st.version, st.origin, st.name with
  | some v, some o, some n =>
    if v ≠ 0 then none
    else if (flushTo st.times st.current).isEmpty then none
    else
      (finishAll (flushTo st.blocks st.media)).map (fun ms =>
        { version := v, origin := o, name := n, info := st.info, uri := st.uri, email := st.email, phone := st.phone,
          connection := st.connection, bandwidth := st.bandwidth, times := flushTo st.times st.current, zones := st.zones,
          key := st.key, attributes := st.attributes, media := ms })
  | _, _, _ => none

/-- parse.rs 517-684 `build_session_description` -/
def build (ls : List SdpLine) : Option Session :=
  match addLines ls {} with
  | none => none
  | some st => finish st

/-! ## Limits and the whole text -/

/-- A carriage return before the line feed belongs to the line end (`str::lines`). -/
def dropCr (s : Str) : Str :=
  match s.reverse with
  | '\r' :: r => r.reverse
  | _ => s

/-- `str::lines`: an empty last line is left out; empty lines do not matter below anyway. -/
def textLines : List Str → List Str
  | [] => []
  | [l] => [l]
  | l :: ls => dropCr l :: textLines ls

/-- parse.rs 83-110 with the default limits of parse.rs 75-84. -/
def withinLimits (s : Str) : Bool :=
  let ls := (textLines (splitChar '\n' s)).filter (fun l => !l.isEmpty)
  decide (utf8Len s ≤ 131072) && decide (ls.length ≤ 2048) && ls.all (fun l => decide (utf8Len l ≤ 4096))

/-- parse.rs 55-57, 87-124 `parse_sdp` -/
def parseSdp (s : Str) : Option Session :=
  if !withinLimits s then none
  else if !(trim (parseLines (s.length + 1) s).2).isEmpty then none
  else build (parseLines (s.length + 1) s).1

/-! ## Writing (serialize.rs) -/

/-- lib.rs 858-869 -/
def MediaType.show : MediaType → Str
  | .audio => "audio".toList
  | .video => "video".toList
  | .text => "text".toList
  | .application => "application".toList
  | .message => "message".toList
  | .other n => n

/-- lib.rs 871-884 -/
def Protocol.show : Protocol → Str
  | .rtpAvp => "RTP/AVP".toList
  | .rtpSavp => "RTP/SAVP".toList
  | .rtpSavpf => "RTP/SAVPF".toList
  | .udpTlsRtpSavpf => "UDP/TLS/RTP/SAVPF".toList
  | .tcpTlsRtpSavpf => "TCP/TLS/RTP/SAVPF".toList
  | .udp => "UDP".toList
  | .tcp => "TCP".toList
  | .other n => n

/-- `{} {} {}` of network type, address type and address (serialize.rs 19-27, 56-61). -/
def showAddress (ipv6 : Bool) (address : Str) : Str :=
  "IN ".toList ++ ((if ipv6 then "IP6".toList else "IP4".toList) ++ ' ' :: address)

/-- serialize.rs 19-27 -/
def originLine (o : Origin) : Str :=
  "o=".toList ++ (o.username ++ ' ' :: (o.sessionId ++ ' ' :: (o.sessionVersion ++ ' ' :: showAddress o.ipv6 o.address)))

/-- serialize.rs 56-61, 145-150 -/
def connectionLine (c : Connection) : Str := "c=".toList ++ showAddress c.ipv6 c.address

/-- serialize.rs 64-66, 153-155 -/
def bandwidthLine (b : Bandwidth) : Str := "b=".toList ++ (b.kind ++ ':' :: showNat b.kbps)

/-- serialize.rs 75-82 -/
def repeatLine (r : RepeatTime) : Str :=
  "r=".toList ++ (r.interval ++ ' ' :: (r.duration ++ (r.offsets.map (' ' :: ·)).flatten))

/-- serialize.rs 69-84 -/
def timeLines (t : TimeDesc) : List Str :=
  ("t=".toList ++ (showNat t.start ++ ' ' :: showNat t.stop)) :: t.repeats.map repeatLine

/-- serialize.rs 90-95: pairs with single spaces between them. -/
def zonePairs : List Zone → Str
  | [] => []
  | [z] => z.time ++ ' ' :: z.offset
  | z :: zs => z.time ++ ' ' :: (z.offset ++ ' ' :: zonePairs zs)

/-- serialize.rs 166-175 `serialize_attribute` -/
def attributeLine : Attribute → Str
  | .property n => "a=".toList ++ n
  | .value n v => "a=".toList ++ (n ++ ':' :: v)

/-- serialize.rs 119-140: the line `m=`. -/
def mediaLine (m : Media) : Str :=
  "m=".toList ++ (m.kind.show ++ ' ' :: ((match m.numPorts with
    | some n => showNat m.port ++ '/' :: showNat n
    | none => showNat m.port) ++ ' ' :: (m.protocol.show ++
      (if m.formats.isEmpty then " 0".toList else (m.formats.map (' ' :: ·)).flatten))))

/-- A line for a value that may be missing. -/
def optLine (tag : Str) : Option Str → List Str
  | some t => [tag ++ t]
  | none => []

/-- serialize.rs 117-163 `serialize_media`: its lines. -/
def mediaLines (m : Media) : List Str :=
  mediaLine m :: (optLine "i=".toList m.title ++ (m.connection.toList.map connectionLine ++
    (m.bandwidth.map bandwidthLine ++ (optLine "k=".toList m.key ++ m.attributes.map attributeLine))))

/-- serialize.rs 12-114 `serialize_sdp`: the lines, without their ends. -/
def sessionLines (s : Session) : List Str :=
  ("v=".toList ++ showNat s.version) :: originLine s.origin :: ("s=".toList ++ s.name) ::
    (optLine "i=".toList s.info ++ (optLine "u=".toList s.uri ++ (optLine "e=".toList s.email ++
    (optLine "p=".toList s.phone ++ (s.connection.toList.map connectionLine ++ (s.bandwidth.map bandwidthLine ++
    ((if s.times.isEmpty then ["t=0 0".toList] else (s.times.map timeLines).flatten) ++
    ((if s.zones.isEmpty then [] else ["z=".toList ++ zonePairs s.zones]) ++ (optLine "k=".toList s.key ++
    (s.attributes.map attributeLine ++ (s.media.map mediaLines).flatten))))))))))

/-- serialize.rs 12-114 `serialize_sdp`: every line ends with CR and LF. -/
def serializeSdp (s : Session) : Str := ((sessionLines s).map (· ++ ['\r', '\n'])).flatten

end Siphon.Sdp
