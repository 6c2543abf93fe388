import Verif.Sdp.Model
import Verif.Base.TextSpec
import Verif.Core.HeadersSpec
/-!
# Specification: what an answer to an offer says (C62, C63, C64)
-/
namespace Siphon.Sdp.Spec
open Siphon.TextSpec

/-- `x` belongs to the first of the items to which anything belongs. -/
def First {α β : Type} (P : α → β → Prop) (items : List α) (x : β) : Prop :=
  ∃ pre a post, items = pre ++ a :: post ∧ P a x ∧ ∀ b ∈ pre, ∀ y, ¬ P b y

/-- A text that may be put into a description. -/
def Field (s : Str) (max : Nat) : Prop := s ≠ [] ∧ utf8Len s ≤ max ∧ ∀ c ∈ s, isControl c = false

/-- A format is a payload type. -/
def Payload (fmt : Str) (pt : Nat) : Prop := Decimal fmt pt ∧ pt ≤ 127

/-- The protocols over which formats are payload types. -/
def Rtp (p : Protocol) : Prop := p = .rtpAvp ∨ p = .rtpSavp ∨ p = .rtpSavpf ∨ p = .udpTlsRtpSavpf ∨ p = .tcpTlsRtpSavpf

/-- Two maps mean the same codec. -/
def SameCodec (r x : RtpMap) : Prop := HdrSpec.SameName r.encoding x.encoding ∧ r.clock = x.clock ∧ r.params = x.params

/-- The local map for a codec of the offer: one for the same codec whose payload type is among the local formats. -/
def Local (l : Media) (r x : RtpMap) : Prop :=
  First (fun (e : Nat × RtpMap) y => e.2 = y ∧ (∃ f ∈ l.formats, Payload f y.payload) ∧ SameCodec r y) l.rtpmaps x

/-- A format of the offer that both sides have, with the map that the answer shows for it. -/
inductive Common (o l : Media) : Str → Option RtpMap → Prop
  | static {fmt pt} : Rtp o.protocol → Payload fmt pt → pt < 96 → (∃ f ∈ l.formats, Payload f pt) →
      Common o l fmt (Tbl.get l.rtpmaps pt)
  | dynamic {fmt pt r x} : Rtp o.protocol → Payload fmt pt → 96 ≤ pt → Tbl.get o.rtpmaps pt = some r → Local l r x →
      Common o l fmt (some { x with payload := pt })
  | token {fmt} : ¬ Rtp o.protocol → fmt ∈ l.formats → Common o l fmt none

/-- The formats of the offer that both sides have, in the order of the offer. -/
inductive Shared (o l : Media) : List Str → List (Str × Option RtpMap) → Prop
  | nil : Shared o l [] []
  | keep {f m fs ms} : Common o l f m → Shared o l fs ms → Shared o l (f :: fs) ((f, m) :: ms)
  | drop {f fs ms} : (∀ m, ¬ Common o l f m) → Shared o l fs ms → Shared o l (f :: fs) ms

/-- The direction that attributes declare. -/
def Declares (as : List Attribute) (d : Dir) : Prop :=
  First (fun a (d : Dir) => a = .property d.word) as d ∨ ((∀ d : Dir, Attribute.property d.word ∉ as) ∧ d = .sendrecv)

/-- The direction of the answer for the directions of the offer and of the answerer (what the code does; see C64). -/
inductive Agreed : Dir → Dir → Dir → Prop
  | silent : Agreed .inactive .inactive .inactive
  | open : Agreed .sendrecv .sendrecv .sendrecv
  | send : Agreed .recvonly .sendrecv .sendonly
  | receive : Agreed .sendonly .sendrecv .recvonly
  | onlySend : Agreed .sendrecv .sendonly .sendonly
  | onlyReceive : Agreed .sendrecv .recvonly .recvonly
  | bothSend : Agreed .sendonly .sendonly .recvonly
  | bothReceive : Agreed .recvonly .recvonly .sendonly

/-- An attribute gives the parameters for a payload type. -/
def FmtpLine (pt : Nat) (a : Attribute) (params : Str) : Prop :=
  ∃ p rest, a = .value "fmtp".toList (p ++ ' ' :: rest) ∧ ' ' ∉ p ∧ Decimal p pt ∧ pt ≤ 255 ∧ Strips isWs rest params

/-- The parameters the answer gives for a format: the answerer's own, else those of the offer. -/
def Wants (o l : Media) (fmt : Str) (e : Nat × Str) : Prop :=
  Payload fmt e.1 ∧ (First (FmtpLine e.1) l.attributes e.2 ∨
    (∀ params, ¬ First (FmtpLine e.1) l.attributes params) ∧ First (FmtpLine e.1) o.attributes e.2)

/-- The parameters for all formats. -/
inductive Fmtps (o l : Media) : List Str → List (Nat × Str) → Prop
  | nil : Fmtps o l [] []
  | keep {f e fs es} : Wants o l f e → Fmtps o l fs es → Fmtps o l (f :: fs) (e :: es)
  | drop {f fs es} : (∀ e, ¬ Wants o l f e) → Fmtps o l fs es → Fmtps o l (f :: fs) es

/-- Of several entries for one number only the last stays. -/
def keepLast {β : Type} : List (Nat × β) → List (Nat × β)
  | [] => []
  | e :: es => if e.1 ∈ es.map (·.1) then keepLast es else e :: keepLast es

/-- The packet time that attributes declare: the first `ptime`, if it is a number. -/
def PacketTime (as : List Attribute) (n : Nat) : Prop :=
  ∃ v, First (fun a v => a = .value "ptime".toList v) as v ∧ Decimal v n ∧ n < 2 ^ 32

/-- The packet time of the answer, as attributes. -/
def PtimeLines (o l : Media) (as : List Attribute) : Prop :=
  (∃ n, (PacketTime l.attributes n ∨ (∀ m, ¬ PacketTime l.attributes m) ∧ PacketTime o.attributes n) ∧
    as = [.value "ptime".toList (showNat n)]) ∨
  (∀ n, ¬ PacketTime l.attributes n) ∧ (∀ n, ¬ PacketTime o.attributes n) ∧ as = []

/-- A map may be shown. -/
def ValidMap (r : RtpMap) : Prop := r.payload ≤ 127 ∧ Field r.encoding 64 ∧ 1000 ≤ r.clock ∧ r.clock ≤ 1000000000

/-- The line that shows a map. -/
def mapLine (r : RtpMap) : Attribute :=
  .value "rtpmap".toList (showNat r.payload ++ " ".toList ++ r.encoding ++ "/".toList ++ showNat r.clock ++
    (match r.params with | some p => "/".toList ++ p | none => []))

/-- The maps of the shared formats. -/
def maps (fs : List (Str × Option RtpMap)) : List (Nat × RtpMap) :=
  fs.filterMap (fun e => e.2.map (fun r => (r.payload, r)))

/-- The answerer's description of this kind of media. -/
def Capability (caps : Session) (k : MediaType) (l : Media) : Prop := First (fun (m : Media) x => m = x ∧ m.kind = k) caps.media l

/-- The stream can be talked about at all: the answerer has this kind of media, over the same protocol, with a common
format. -/
def Talks (caps : Session) (o l : Media) (fs : List (Str × Option RtpMap)) : Prop :=
  Capability caps o.kind l ∧ o.protocol = l.protocol ∧ Shared o l o.formats fs ∧ fs ≠ []

/-- The stream is accepted, and the answer describes it so. -/
def Accepts (caps : Session) (o a : Media) : Prop :=
  ∃ l fs od ld d es pl, Talks caps o l fs ∧
    Declares o.attributes od ∧ Declares l.attributes ld ∧ Agreed od ld d ∧
    Fmtps o l (fs.map (·.1)) es ∧ PtimeLines o l pl ∧
    fs.length ≤ 50 ∧ (∀ e ∈ fs, Field e.1 64) ∧ (∀ e ∈ maps fs, ValidMap e.2) ∧
    (keepLast (maps fs)).length + (keepLast es).length + pl.length < 50 ∧
    (∀ pt, Tbl.get a.rtpmaps pt = Tbl.get (keepLast (maps fs)) pt) ∧
    a = { kind := o.kind, port := l.port, numPorts := o.numPorts, protocol := o.protocol, formats := fs.map (·.1),
          connection := l.connection, rtpmaps := a.rtpmaps,
          attributes := (keepLast (maps fs)).map (fun e => mapLine e.2) ++
            (keepLast es).map (fun e => Attribute.value "fmtp".toList (showNat e.1 ++ " ".toList ++ e.2)) ++
            pl ++ [.property d.word] }

/-- The answer to a stream that is not accepted. -/
def refused (o : Media) : Media :=
  { kind := o.kind, port := 0, numPorts := o.numPorts, protocol := o.protocol,
    formats := if o.formats = [] then ["0".toList] else o.formats }

/-- The streams of the answer, one for each of the offer; `seen` are the kinds accepted before. -/
inductive Answers (caps : Session) : List MediaType → List Media → List Media → Prop
  | nil {seen} : Answers caps seen [] []
  | again {seen o os as} : o.kind ∈ seen → Answers caps seen os as → Answers caps seen (o :: os) (refused o :: as)
  | accept {seen o a os as} : o.kind ∉ seen → Accepts caps o a → Answers caps (o.kind :: seen) os as →
      Answers caps seen (o :: os) (a :: as)
  | refuse {seen o os as} : o.kind ∉ seen → (∀ l fs, ¬ Talks caps o l fs) → Answers caps seen os as →
      Answers caps seen (o :: os) (refused o :: as)

end Siphon.Sdp.Spec
