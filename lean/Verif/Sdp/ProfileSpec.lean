import Verif.Sdp.Profiles
import Verif.Sdp.Spec
/-!
# Specification: the answer from a profile (C98)
-/
namespace Siphon.Sdp.Spec
open Siphon.TextSpec

/-- The codecs that are taken from the formats of one stream: those formats that are a wanted payload type for which the
stream has a map. -/
inductive Picks (want : List Nat) (m : Media) : List Str → List Codec → Prop
  | nil : Picks want m [] []
  | pick {f pt r fs cs} : Payload f pt → pt ∈ want → Tbl.get m.rtpmaps pt = some r → Picks want m fs cs →
      Picks want m (f :: fs) (⟨pt, r.encoding, r.clock⟩ :: cs)
  | skip {f fs cs} : (∀ pt r, Payload f pt → pt ∈ want → Tbl.get m.rtpmaps pt ≠ some r) → Picks want m fs cs →
      Picks want m (f :: fs) cs

/-- The codecs taken from all streams of one kind. -/
inductive PicksAll (want : List Nat) (k : MediaType) : List Media → List Codec → Prop
  | nil : PicksAll want k [] []
  | mine {m ms cs ds} : m.kind = k → Picks want m m.formats cs → PicksAll want k ms ds → PicksAll want k (m :: ms) (cs ++ ds)
  | other {m ms ds} : m.kind ≠ k → PicksAll want k ms ds → PicksAll want k (m :: ms) ds

/-- The offer has a stream of this kind. -/
def Has (offer : Session) (k : MediaType) : Prop := ∃ m ∈ offer.media, m.kind = k

/-- Key presses are answered. -/
def Keys (offer : Session) (p : Profile) : Prop :=
  p.telephoneEvent = true ∧ ∃ m ∈ offer.media, m.kind = .audio ∧ ∃ f ∈ m.formats, Payload f 101

/-- Video is answered. -/
def Video (offer : Session) (p : Profile) : Prop := (p.enableVideo = true ∨ p.video ≠ []) ∧ Has offer .video

/-- A codec that the builders accept. -/
def GoodCodec (c : Codec) : Prop := Field c.name 64 ∧ 1000 ≤ c.clock ∧ c.clock ≤ 1000000000

/-- The codec for key presses. -/
def keysCodec : Codec := ⟨101, "telephone-event".toList, 8000⟩

/-- The map of a codec. -/
def codecMap (c : Codec) : Nat × RtpMap := (c.payload, ⟨c.payload, c.name, c.clock, none⟩)

/-- A stream of the answer: the codecs in the order of the offer, each with its map (the last one if a number occurs more than
once), to be sent and received. -/
def Stream (kind : MediaType) (port : Nat) (cs : List Codec) (keys mux : Prop) (a : Media) : Prop :=
  ∃ ks ms, (keys ∧ ks = [.value "fmtp".toList "101 0-16".toList] ∨ ¬ keys ∧ ks = []) ∧
    (mux ∧ ms = [.property "rtcp-mux".toList] ∨ ¬ mux ∧ ms = []) ∧
    (∀ pt, Tbl.get a.rtpmaps pt = Tbl.get (keepLast (cs.map codecMap)) pt) ∧
    a = { kind := kind, port := port, formats := cs.map (fun c => showNat c.payload), rtpmaps := a.rtpmaps,
          attributes := .property "sendrecv".toList :: ((keepLast (cs.map codecMap)).map (fun e => mapLine e.2) ++ ks ++ ms) }

end Siphon.Sdp.Spec
