import Verif.Sdp.Text
import Verif.Sdp.Spec
/-!
# Specification: the texts that are read as session descriptions (C96), and the descriptions that can be written (C97)

`Reads l t`: the text `t` is a line that says `l`. `Text ls t`: the whole text `t` consists of the lines `ls`.
`Describes ls s`: the lines together describe the session `s`.
-/
namespace Siphon.Sdp.Spec
open Siphon.TextSpec

/-- No carriage return and no line feed. -/
def OneLine (s : Str) : Prop := '\r' ∉ s ∧ '\n' ∉ s

/-- One or more spaces and tabs. -/
def Blanks (b : Str) : Prop := b ≠ [] ∧ ∀ c ∈ b, c = ' ' ∨ c = '\t'

/-- Spaces and tabs that begin with a space. -/
def Spaces (b : Str) : Prop := Blanks b ∧ b.head? = some ' '

/-- Does not begin with a space or a tab. -/
def NoLead (s : Str) : Prop := s.head? ≠ some ' ' ∧ s.head? ≠ some '\t'

/-- A number that fits. -/
def Number (max : Nat) (d : Str) (n : Nat) : Prop := DecDigits d n ∧ n ≤ max

/-- Network type, address type and address. -/
inductive AddressText : Bool → Str → Str → Prop
  | ip4 {b b' a addr} : Blanks b → Blanks b' → OneLine a → NoLead a → Strips isWs a addr →
      AddressText false addr ("IN".toList ++ (b ++ ("IP4".toList ++ (b' ++ a))))
  | ip6 {b b' a addr} : Blanks b → Blanks b' → OneLine a → NoLead a → Strips isWs a addr →
      AddressText true addr ("IN".toList ++ (b ++ ("IP6".toList ++ (b' ++ a))))

/-- The name of a kind of media. -/
def KindName (k : MediaType) (n : Str) : Prop :=
  (k = .audio ∧ n = "audio".toList) ∨ (k = .video ∧ n = "video".toList) ∨ (k = .text ∧ n = "text".toList) ∨
  (k = .application ∧ n = "application".toList) ∨ (k = .message ∧ n = "message".toList) ∨
  (k = .other n ∧ n ∉ ["audio".toList, "video".toList, "text".toList, "application".toList, "message".toList])

/-- The name of a protocol. Names that only begin like a known protocol are not read at all. -/
def ProtocolName (p : Protocol) (n : Str) : Prop :=
  (p = .rtpAvp ∧ n = "RTP/AVP".toList) ∨ (p = .rtpSavp ∧ n = "RTP/SAVP".toList) ∨ (p = .rtpSavpf ∧ n = "RTP/SAVPF".toList) ∨
  (p = .udpTlsRtpSavpf ∧ n = "UDP/TLS/RTP/SAVPF".toList) ∨ (p = .tcpTlsRtpSavpf ∧ n = "TCP/TLS/RTP/SAVPF".toList) ∨
  (p = .udp ∧ n = "UDP".toList) ∨ (p = .tcp ∧ n = "TCP".toList) ∨
  (p = .other n ∧ n ≠ [] ∧ ' ' ∉ n ∧ OneLine n ∧ NoLead n ∧
    ∀ k ∈ ["RTP/SAVP".toList, "RTP/AVP".toList, "UDP".toList, "TCP".toList], ¬ k <+: n)

/-- Port and number of ports. -/
inductive PortText : Nat → Option Nat → Str → Prop
  | one {d p} : Number 65535 d p → PortText p none d
  | many {d p e n} : Number 65535 d p → Number 65535 e n → PortText p (some n) (d ++ '/' :: e)

/-- Formats with spaces between them. -/
inductive FormatsText : List Str → Str → Prop
  | one {f} : ' ' ∉ f → OneLine f → NoLead f → FormatsText [f] f
  | more {f b fs t} : f ≠ [] → ' ' ∉ f → OneLine f → NoLead f → Spaces b → FormatsText fs t →
      FormatsText (f :: fs) (f ++ (b ++ t))

/-- The words of a repetition. -/
inductive RepeatWords : RepeatTime → List Str → Prop
  | none : RepeatWords ⟨[], [], []⟩ []
  | one {a} : RepeatWords ⟨a, [], []⟩ [a]
  | more {a b os} : RepeatWords ⟨a, b, os⟩ (a :: b :: os)

/-- The words of zone adjustments. -/
inductive ZoneWords : List Zone → List Str → Prop
  | nil : ZoneWords [] []
  | odd {a} : ZoneWords [⟨a, []⟩] [a]
  | pair {a b zs ws} : ZoneWords zs ws → ZoneWords (⟨a, b⟩ :: zs) (a :: b :: ws)

/-- A text with its white space at the end removed. -/
def StripsEnd (s t : Str) : Prop :=
  ∃ b, s = t ++ b ∧ (∀ c ∈ b, isWs c = true) ∧ ∀ c, t.getLast? = some c → isWs c = false

/-- What a line with this text says. -/
inductive Reads : SdpLine → Str → Prop
  | version {d n} : Number 255 d n → Reads (.version n) ("v=".toList ++ d)
  | origin {u b1 i b2 v b3 six addr a} : ' ' ∉ u → Spaces b1 → i ≠ [] → ' ' ∉ i → NoLead i → Spaces b2 →
      v ≠ [] → ' ' ∉ v → NoLead v → Spaces b3 → AddressText six addr a →
      Reads (.origin ⟨u, i, v, six, addr⟩) ("o=".toList ++ (u ++ (b1 ++ (i ++ (b2 ++ (v ++ (b3 ++ a)))))))
  | name {x t} : OneLine x → Strips isWs x t → Reads (.name t) ("s=".toList ++ x)
  | info {x t} : OneLine x → Strips isWs x t → Reads (.info t) ("i=".toList ++ x)
  | uri {x t} : OneLine x → Strips isWs x t → Reads (.uri t) ("u=".toList ++ x)
  | email {x t} : OneLine x → Strips isWs x t → Reads (.email t) ("e=".toList ++ x)
  | phone {x t} : OneLine x → Strips isWs x t → Reads (.phone t) ("p=".toList ++ x)
  | connection {six addr a} : AddressText six addr a → Reads (.connection ⟨six, addr⟩) ("c=".toList ++ a)
  | bandwidth {k d n} : ':' ∉ k → Number 4294967295 d n → Reads (.bandwidth ⟨k, n⟩) ("b=".toList ++ (k ++ ':' :: d))
  | time {d a b e z} : Number 18446744073709551615 d a → Blanks b → Number 18446744073709551615 e z →
      Reads (.time a z) ("t=".toList ++ (d ++ (b ++ e)))
  | repeat {x ws r} : OneLine x → Words x ws → RepeatWords r ws → Reads (.repeat r) ("r=".toList ++ x)
  | zone {x ws zs} : OneLine x → Words x ws → ZoneWords zs ws → Reads (.zone zs) ("z=".toList ++ x)
  | key {x t} : OneLine x → Strips isWs x t → Reads (.key t) ("k=".toList ++ x)
  | value {n v t} : ':' ∉ n → OneLine n → OneLine v → StripsEnd v t →
      Reads (.attribute (.value n t)) ("a=".toList ++ (n ++ ':' :: v))
  | property {x t} : ':' ∉ x → OneLine x → Strips isWs x t → Reads (.attribute (.property t)) ("a=".toList ++ x)
  | media {k kn b1 port num pt b2 p pn b3 fs ft} : KindName k kn → ' ' ∉ kn → OneLine kn → Spaces b1 →
      PortText port num pt → Blanks b2 → ProtocolName p pn → Blanks b3 → (∀ n, p = .other n → b3.head? = some ' ') →
      FormatsText fs ft →
      Reads (.media { kind := k, port := port, numPorts := num, protocol := p, formats := fs })
        ("m=".toList ++ (kn ++ (b1 ++ (pt ++ (b2 ++ (pn ++ (b3 ++ ft)))))))

/-- What may follow a line: the line end, or for lines that end with a number anything but a digit. -/
def Ends (l : SdpLine) (r : Str) : Prop :=
  match l with
  | .version _ | .bandwidth _ | .time _ _ => ∀ c, r.head? = some c → isDigit c = false
  | _ => ∀ c, r.head? = some c → c = '\r' ∨ c = '\n'

/-- `r'` is `r` without the line end it may begin with. -/
def SkipsEnd (r r' : Str) : Prop :=
  r = '\n' :: r' ∨ r = '\r' :: '\n' :: r' ∨ (r = r' ∧ ∀ s, r ≠ '\n' :: s ∧ r ≠ '\r' :: '\n' :: s)

/-- The whole text consists of these lines; at its end there may be white space. -/
inductive Text : List SdpLine → Str → Prop
  | nil {t} : (∀ c ∈ t, isWs c = true) → Text [] t
  | cons {l ls t r r'} : Reads l t → Ends l r → SkipsEnd r r' → Text ls r' → Text (l :: ls) (t ++ r)

/-- The lines of a text, as far as the limits count: line feeds end lines, a carriage return before one belongs to it. -/
inductive Lines : Str → List Str → Prop
  | last {l} : '\n' ∉ l → Lines l [l]
  | lf {l t ls} : '\n' ∉ l → l.getLast? ≠ some '\r' → Lines t ls → Lines (l ++ '\n' :: t) (l :: ls)
  | crlf {l t ls} : '\n' ∉ l → Lines t ls → Lines (l ++ '\r' :: '\n' :: t) (l :: ls)

/-- At most 128 KiB, 2048 lines that are not empty, 4096 bytes in each. -/
def Fits (t : Str) : Prop :=
  utf8Len t ≤ 131072 ∧ ∃ ls, Lines t ls ∧ (ls.filter (fun l => decide (l ≠ []))).length ≤ 2048 ∧ ∀ l ∈ ls, utf8Len l ≤ 4096

/-! ## What the lines describe -/

/-- The lines `t=` and `r=`. -/
def timing : SdpLine → Option ((Nat × Nat) ⊕ RepeatTime)
  | .time a b => some (.inl (a, b))
  | .repeat r => some (.inr r)
  | _ => none

/-- A line `m=`. -/
def isMedia : SdpLine → Bool
  | .media _ => true
  | _ => false

/-- The lines before the first line `m=`, and for each such line the lines up to the next. -/
inductive Sections : List SdpLine → List SdpLine → List (Media × List SdpLine) → Prop
  | head {ls} : (∀ l ∈ ls, isMedia l = false) → Sections ls ls []
  | media {m pre body rest hd secs} : (∀ l ∈ body, isMedia l = false) → Sections pre hd secs →
      rest = pre ++ .media m :: body → Sections rest hd (secs ++ [(m, body)])

/-- The value of the last line of some sort. -/
def last {α : Type} (f : SdpLine → Option α) (ls : List SdpLine) : Option α := (ls.filterMap f).getLast?

def versionOf : SdpLine → Option Nat | .version n => some n | _ => none
def originOf : SdpLine → Option Origin | .origin o => some o | _ => none
def nameOf : SdpLine → Option Str | .name t => some t | _ => none
def infoOf : SdpLine → Option Str | .info t => some t | _ => none
def uriOf : SdpLine → Option Str | .uri t => some t | _ => none
def emailOf : SdpLine → Option Str | .email t => some t | _ => none
def phoneOf : SdpLine → Option Str | .phone t => some t | _ => none
def keyOf : SdpLine → Option Str | .key t => some t | _ => none
def connectionOf : SdpLine → Option Connection | .connection c => some c | _ => none
def bandwidthOf : SdpLine → Option Bandwidth | .bandwidth b => some b | _ => none
def attributeOf : SdpLine → Option Attribute | .attribute a => some a | _ => none
def zoneOf : SdpLine → Option (List Zone) | .zone z => some z | _ => none

/-- A map in an attribute `rtpmap`. -/
def MapValue (value : Str) (r : RtpMap) : Prop :=
  ∃ p rest clock more, value = p ++ ' ' :: rest ∧ ' ' ∉ p ∧ Decimal p r.payload ∧ r.payload ≤ 255 ∧
    Pieces '/' rest (r.encoding :: clock :: more) ∧ Decimal clock r.clock ∧ r.clock ≤ 4294967295 ∧ r.params = more.head?

/-- `r` is the last map for payload type `pt` in the attributes. -/
def LastMap (as : List Attribute) (pt : Nat) (r : RtpMap) : Prop :=
  ∃ pre v post, as = pre ++ .value "rtpmap".toList v :: post ∧ MapValue v r ∧ r.payload = pt ∧
    ∀ w r', Attribute.value "rtpmap".toList w ∈ post → MapValue w r' → r'.payload ≠ pt

/-- A stream: its line `m=`, and the lines after it. -/
def MediaSection (sec : Media × List SdpLine) (m : Media) : Prop :=
  m = { sec.1 with title := last infoOf sec.2, connection := last connectionOf sec.2,
                   bandwidth := sec.2.filterMap bandwidthOf, key := last keyOf sec.2,
                   attributes := sec.2.filterMap attributeOf, rtpmaps := m.rtpmaps } ∧
  (∀ pt r, Tbl.get m.rtpmaps pt = some r ↔ LastMap m.attributes pt r) ∧
  m.attributes.length ≤ 500 ∧ m.kind ≠ .other [] ∧ m.formats ≠ [] ∧ (∀ f ∈ m.formats, f ≠ []) ∧
  (Rtp m.protocol → ∀ f ∈ m.formats, ∃ pt, Payload f pt)

/-- Corresponding members of two lists. -/
inductive Zip {α β : Type} (P : α → β → Prop) : List α → List β → Prop
  | nil : Zip P [] []
  | cons {a b as bs} : P a b → Zip P as bs → Zip P (a :: as) (b :: bs)

/-- The session that lines describe. -/
def Describes (ls : List SdpLine) (s : Session) : Prop :=
  ∃ hd secs, Sections ls hd secs ∧
    s.version = 0 ∧ last versionOf ls = some 0 ∧ last originOf ls = some s.origin ∧ last nameOf ls = some s.name ∧
    s.uri = last uriOf ls ∧ s.email = last emailOf ls ∧ s.phone = last phoneOf ls ∧
    s.info = last infoOf hd ∧ s.connection = last connectionOf hd ∧ s.bandwidth = hd.filterMap bandwidthOf ∧
    s.key = last keyOf hd ∧ s.attributes = hd.filterMap attributeOf ∧ s.attributes.length ≤ 500 ∧
    s.times ≠ [] ∧ ls.filterMap timing = s.times.flatMap (fun t => .inl (t.start, t.stop) :: t.repeats.map .inr) ∧
    (∀ t ∈ s.times, ∀ r ∈ t.repeats, r.interval ≠ [] ∧ r.duration ≠ []) ∧
    s.zones = (ls.filterMap zoneOf).flatten ∧
    (∀ z ∈ ls.filterMap zoneOf, z ≠ [] ∧ ∀ e ∈ z, e.time ≠ [] ∧ e.offset ≠ []) ∧
    Zip MediaSection secs s.media

/-- Two streams that differ at most in the order of their table of maps. -/
def SameMedia (m m' : Media) : Prop :=
  { m with rtpmaps := [] } = { m' with rtpmaps := [] } ∧ ∀ pt, Tbl.get m.rtpmaps pt = Tbl.get m'.rtpmaps pt

/-- Two sessions that differ at most in the order of tables of maps. -/
def Same (s s' : Session) : Prop := { s with media := [] } = { s' with media := [] } ∧ Zip SameMedia s.media s'.media

/-- Two sessions that have the same lines. -/
def SameLines (s s' : Session) : Prop :=
  { s with media := [] } = { s' with media := [] } ∧
    Zip (fun m m' => { m with rtpmaps := [] } = { m' with rtpmaps := [] }) s.media s'.media

/-! ## What can be written -/

/-- A text that fills the rest of a line. -/
def LineText (t : Str) : Prop := OneLine t ∧ Strips isWs t t

/-- A word. -/
def Word (w : Str) : Prop := w ≠ [] ∧ ∀ c ∈ w, isWs c = false

/-- An attribute that can be written. -/
def GoodAttribute : Attribute → Prop
  | .property n => LineText n ∧ ':' ∉ n
  | .value n v => ':' ∉ n ∧ OneLine n ∧ OneLine v ∧ ∀ c, v.getLast? = some c → isWs c = false

/-- A bandwidth that can be written. -/
def GoodBandwidth (b : Bandwidth) : Prop := ':' ∉ b.kind ∧ b.kbps < 2 ^ 32

/-- A token of the origin that can be written. -/
def GoodToken (t : Str) : Prop := t ≠ [] ∧ ' ' ∉ t ∧ NoLead t

/-- A stream that can be written. -/
def GoodMedia (m : Media) : Prop :=
  (∀ n, m.kind = .other n → KindName m.kind n ∧ n ≠ [] ∧ ' ' ∉ n ∧ OneLine n) ∧
  m.port < 2 ^ 16 ∧ (∀ n, m.numPorts = some n → n < 2 ^ 16) ∧ (∀ n, m.protocol = .other n → ProtocolName m.protocol n) ∧
  m.formats ≠ [] ∧ (∀ f ∈ m.formats, f ≠ [] ∧ ' ' ∉ f ∧ OneLine f ∧ NoLead f) ∧
  (Rtp m.protocol → ∀ f ∈ m.formats, ∃ pt, Payload f pt) ∧
  (∀ t, m.title = some t → LineText t) ∧ (∀ c, m.connection = some c → LineText c.address) ∧
  (∀ b ∈ m.bandwidth, GoodBandwidth b) ∧ (∀ t, m.key = some t → LineText t) ∧
  (∀ a ∈ m.attributes, GoodAttribute a) ∧ m.attributes.length ≤ 500

/-- A session that can be written so that it is read back. -/
def Writable (s : Session) : Prop :=
  s.version = 0 ∧ ' ' ∉ s.origin.username ∧ GoodToken s.origin.sessionId ∧ GoodToken s.origin.sessionVersion ∧
  LineText s.origin.address ∧ LineText s.name ∧ (∀ t, s.info = some t → LineText t) ∧ (∀ t, s.uri = some t → LineText t) ∧
  (∀ t, s.email = some t → LineText t) ∧ (∀ t, s.phone = some t → LineText t) ∧
  (∀ c, s.connection = some c → LineText c.address) ∧ (∀ b ∈ s.bandwidth, GoodBandwidth b) ∧
  s.times ≠ [] ∧ (∀ t ∈ s.times, t.start < 2 ^ 64 ∧ t.stop < 2 ^ 64 ∧
    ∀ r ∈ t.repeats, Word r.interval ∧ Word r.duration ∧ ∀ o ∈ r.offsets, Word o) ∧
  (∀ z ∈ s.zones, Word z.time ∧ Word z.offset) ∧ (∀ t, s.key = some t → LineText t) ∧
  (∀ a ∈ s.attributes, GoodAttribute a) ∧ s.attributes.length ≤ 500 ∧ ∀ m ∈ s.media, GoodMedia m

end Siphon.Sdp.Spec
