import Verif.Sdp.Text
/-!
# Model: answers from profiles (sip-sdp profiles.rs, siphond sdp_utils.rs)

`profiles.rs` unwraps every `Result` of the builders with `expect`, so an error of a builder is a panic here. Files without a
crate are those of `crates/sip-sdp/src`. The overflow of `audio_port + 2` is a panic, as in builds with overflow checks.
-/
namespace Siphon.Sdp

/-- profiles.rs 27-28: one entry of `audio_codecs` or `video_codecs`. -/
structure Codec where
  payload : Nat
  name : Str
  clock : Nat
  deriving DecidableEq, Repr

/-- profiles.rs 26-33 `MediaProfileBuilder` -/
structure Profile where
  audio : List Codec
  video : List Codec
  telephoneEvent : Bool
  direction : Str
  enableVideo : Bool
  rtcpMux : Bool
  deriving DecidableEq, Repr

/-- profiles.rs 37-46 `audio_only` -/
def audioOnly : Profile :=
  { audio := [⟨0, "PCMU".toList, 8000⟩, ⟨8, "PCMA".toList, 8000⟩], video := [], telephoneEvent := true,
    direction := "sendrecv".toList, enableVideo := false, rtcpMux := true }

/-- profiles.rs 49-61 `audio_video` -/
def audioVideo : Profile :=
  { audio := [⟨0, "PCMU".toList, 8000⟩, ⟨8, "PCMA".toList, 8000⟩],
    video := [⟨96, "H264".toList, 90000⟩, ⟨97, "VP8".toList, 90000⟩], telephoneEvent := true,
    direction := "sendrecv".toList, enableVideo := true, rtcpMux := true }

/-- profiles.rs 110-116, 136-142: the loop over the codecs; `none` is a panic. -/
def addCodecs : List Codec → Media → Option Media
  | [], m => some m
  | c :: cs, m =>
    match m.addFormat c.payload with
    | none => none
    | some m =>
      match m.addRtpmap ⟨c.payload, c.name, c.clock, none⟩ with
      | none => none
      | some m => addCodecs cs m

/-- profiles.rs 117-125 -/
def addTelephoneEvent (m : Media) : Option Media :=
  match m.addFormat 101 with
  | none => none
  | some m =>
    match m.addRtpmap ⟨101, "telephone-event".toList, 8000, none⟩ with
    | none => none
    | some m => m.addAttribute "fmtp".toList "101 0-16".toList

/-- profiles.rs 126-128, 143-145 -/
def addMux (on : Bool) (m : Media) : Option Media := if on then m.addProperty "rtcp-mux".toList else some m

/-- profiles.rs 107-128: the audio stream. -/
def Profile.audioStream (p : Profile) (port : Nat) : Option Media :=
  match ({ kind := .audio, port := port } : Media).addProperty p.direction with
  | none => none
  | some m =>
    match addCodecs p.audio m with
    | none => none
    | some m =>
      match (if p.telephoneEvent then addTelephoneEvent m else some m) with
      | none => none
      | some m => addMux p.rtcpMux m

/-- profiles.rs 133-145: the video stream. -/
def Profile.videoStream (p : Profile) (port : Nat) : Option Media :=
  match ({ kind := .video, port := port } : Media).addProperty p.direction with
  | none => none
  | some m =>
    match addCodecs p.video m with
    | none => none
    | some m => addMux p.rtcpMux m

/-- profiles.rs 97-105: the lines of the session. -/
def profileBase (username sessionId addr : Str) : Option Session :=
  match ({} : Session).setOrigin username sessionId addr with
  | none => none
  | some b =>
    match b.setName "siphon".toList with
    | none => none
    | some b =>
      match b.setConnection addr with
      | none => none
      | some b => some (b.setTime 0 0)

/-- profiles.rs 132: `video_port.unwrap_or(audio_port + 2)`; the sum is computed even if there is a video port. -/
def videoPort (audioPort : Nat) (video : Option Nat) : Option Nat :=
  if audioPort + 2 > 65535 then none
  else
    match video with
    | some v => some v
    | none => some (audioPort + 2)

/-- profiles.rs 90-150 `build`. `sessionId` is the time in seconds, as text. -/
def Profile.build (p : Profile) (username sessionId addr : Str) (audioPort : Nat) (video : Option Nat) : Option Session :=
  match profileBase username sessionId addr with
  | none => none
  | some b =>
    match p.audioStream audioPort with
    | none => none
    | some a =>
      match b.addMedia a with
      | none => none
      | some b =>
        if p.enableVideo then
          match videoPort audioPort video with
          | none => none
          | some vp =>
            match p.videoStream vp with
            | none => none
            | some v => b.addMedia v
        else some b

/-- profiles.rs 335-348, 358-372: one format of the offer. -/
def pickFormat (want : List Nat) (m : Media) (fmt : Str) : Option Codec :=
  match parsePayload fmt with
  | none => none
  | some pt =>
    if want.contains pt then
      match Tbl.get m.rtpmaps pt with
      | some r => some ⟨pt, r.encoding, r.clock⟩
      | none => none
    else none

/-- profiles.rs 332-376: one stream of the offer. -/
def gather (p : Profile) (b : Profile) (m : Media) : Profile :=
  match m.kind with
  | .audio =>
    { b with
      audio := b.audio ++ m.formats.filterMap (pickFormat (p.audio.map (·.payload)) m)
      telephoneEvent := b.telephoneEvent || (p.telephoneEvent && m.formats.any (fun f => parsePayload f == some 101)) }
  | .video =>
    if p.enableVideo || !p.video.isEmpty then
      { b with
        enableVideo := true
        video := b.video ++ m.formats.filterMap (pickFormat (p.video.map (·.payload)) m) }
    else b
  | _ => b

/-- profiles.rs 320-327: the builder of the answer, before the streams of the offer. -/
def emptyProfile (p : Profile) : Profile :=
  { audio := [], video := [], telephoneEvent := false, direction := "sendrecv".toList, enableVideo := false, rtcpMux := p.rtcpMux }

/-- profiles.rs 312-379 `negotiate_answer`; `none` is a panic. -/
def profileAnswer (offer : Session) (p : Profile) (username sessionId addr : Str) (audioPort : Nat) (video : Option Nat) :
    Option Session :=
  (offer.media.foldl (gather p) (emptyProfile p)).build username sessionId addr audioPort video

/-- What happens to an offer. -/
inductive Outcome
  | crash
  | refused
  | answer (text : Str)
  deriving DecidableEq, Repr

/-- bins/siphond/src/sdp_utils.rs 93-132 `generate_sdp_answer` with the profile `AudioOnly` (`video = none`) or `AudioVideo`
(`video` is the configured port). The user name and the address of sdp_utils.rs 40-47 are arguments. -/
def siphondAnswer (username sessionId addr : Str) (audioPort : Nat) (video : Option Nat) (offer : Str) : Outcome :=
  match parseSdp offer with
  | none => .refused
  | some o =>
    match profileAnswer o (if video.isSome then audioVideo else audioOnly) username sessionId addr audioPort video with
    | none => .crash
    | some a => .answer (serializeSdp a)

end Siphon.Sdp
