import Verif.Sdp.ProfileLemmas
import Verif.Sdp.Props
set_option linter.unusedSimpArgs false
/-!
# Properties: answers from profiles (C98)
-/
namespace Siphon.Sdp
open Siphon.TextSpec Spec

theorem profileBase_iff (u i addr : Str) (b : Session) : profileBase u i addr = some b ↔
    (Field u 256 ∧ Field i 256 ∧ Field addr 256) ∧
      b = { origin := ⟨u, i, "0".toList, addr.contains ':', addr⟩, name := "siphon".toList,
            connection := some ⟨addr.contains ':', addr⟩, times := [⟨0, 0, []⟩], media := [] } := by
  have hn : validField "siphon".toList 512 = true := by decide
  unfold profileBase Session.setOrigin Origin.new Session.setName Session.setConnection Connection.new Session.setTime
  simp only [field_iff, hn]
  cases h1 : validField u 256 <;> cases h2 : validField i 256 <;> cases h3 : validField addr 256 <;>
    simp [h1, h2, h3, eq_comm]

theorem addMedia_lt (s : Session) (m : Media) (h : s.media.length < 20) :
    s.addMedia m = some { s with media := s.media ++ [m] } := by
  unfold Session.addMedia
  rw [if_neg (by omega)]

/-! ## C98 -/

/-- The stream for audio, with the codecs `as`. -/
def AudioAnswer (offer : Session) (p : Profile) (port : Nat) (as : List Codec) (a : Media) : Prop :=
  (Keys offer p ∧ Stream .audio port (as ++ [keysCodec]) True (p.rtcpMux = true) a) ∨
  (¬ Keys offer p ∧ Stream .audio port as False (p.rtcpMux = true) a)

/-- How many formats the stream for audio needs. -/
def AudioFits (offer : Session) (p : Profile) (as : List Codec) : Prop :=
  as.length ≤ 50 ∧ (Keys offer p → as.length ≤ 49)

theorem keys_iff (offer : Session) (p : Profile) : Keys offer p ↔
    (p.telephoneEvent && offer.media.any (fun m => m.kind == .audio && m.formats.any (fun f => parsePayload f == some 101))) = true := by
  unfold Keys
  simp only [Bool.and_eq_true, List.any_eq_true, beq_iff_eq, payload_iff]

theorem video_iff (offer : Session) (p : Profile) : Video offer p ↔
    ((p.enableVideo || !p.video.isEmpty) && offer.media.any (fun m => m.kind == .video)) = true := by
  unfold Video Has
  simp only [Bool.and_eq_true, Bool.or_eq_true, List.any_eq_true, beq_iff_eq, Bool.not_eq_true', List.isEmpty_eq_false_iff]

theorem profileAnswer_spec (offer : Session) (p : Profile) (u i addr : Str) (port : Nat) (video : Option Nat) (as vs : List Codec)
    (ha : PicksAll (p.audio.map (·.payload)) .audio offer.media as)
    (hv : PicksAll (p.video.map (·.payload)) .video offer.media vs)
    (hp : p.audio.length ≤ 40 ∧ p.video.length ≤ 40) :
    (∀ ans, profileAnswer offer p u i addr port video = some ans →
      ((Field u 256 ∧ Field i 256 ∧ Field addr 256) ∧ AudioFits offer p as ∧ (∀ c ∈ as, GoodCodec c) ∧
        (Video offer p → port + 2 ≤ 65535 ∧ vs.length ≤ 50 ∧ ∀ c ∈ vs, GoodCodec c)) ∧
      ∃ a rest, AudioAnswer offer p port as a ∧
        ((Video offer p ∧ ∃ v vp, rest = [v] ∧ (video = some vp ∨ video = none ∧ vp = port + 2) ∧
            Stream .video vp vs False (p.rtcpMux = true) v) ∨
          (¬ Video offer p ∧ rest = [])) ∧
        ans = { origin := ⟨u, i, "0".toList, addr.contains ':', addr⟩, name := "siphon".toList,
                connection := some ⟨addr.contains ':', addr⟩, times := [⟨0, 0, []⟩], media := a :: rest }) ∧
    ((Field u 256 ∧ Field i 256 ∧ Field addr 256) → AudioFits offer p as → (∀ c ∈ as, GoodCodec c) →
        (Video offer p → port + 2 ≤ 65535 ∧ vs.length ≤ 50 ∧ ∀ c ∈ vs, GoodCodec c) →
        ∃ ans, profileAnswer offer p u i addr port video = some ans) := by
  rw [picksAll_iff] at ha hv
  have hbs : offer.media.foldl (gather p) (emptyProfile p) =
      { audio := as
        video := if p.enableVideo || !p.video.isEmpty then vs else []
        telephoneEvent := p.telephoneEvent && offer.media.any (fun m => m.kind == .audio &&
          m.formats.any (fun f => parsePayload f == some 101))
        direction := "sendrecv".toList
        enableVideo := (p.enableVideo || !p.video.isEmpty) && offer.media.any (fun m => m.kind == .video)
        rtcpMux := p.rtcpMux } := by
    rw [gather_foldl, ha, hv]
    unfold emptyProfile
    simp only [List.nil_append, Bool.false_or]
  have hka := keys_iff offer p
  have hvi := video_iff offer p
  unfold profileAnswer
  rw [hbs]
  generalize hT : (p.telephoneEvent && offer.media.any (fun m => m.kind == .audio &&
          m.formats.any (fun f => parsePayload f == some 101))) = T at hka
  generalize hV : ((p.enableVideo || !p.video.isEmpty) && offer.media.any (fun m => m.kind == .video)) = V at hvi
  have hvs : V = true → (if p.enableVideo || !p.video.isEmpty then vs else []) = vs := by
    intro h
    rw [h, Bool.and_eq_true] at hV
    rw [if_pos hV.1]
  generalize (if p.enableVideo || !p.video.isEmpty then vs else []) = VS at hvs
  obtain ⟨a1, a2⟩ := audioStream_spec ⟨as, VS, T, "sendrecv".toList, V, p.rtcpMux⟩ port (p.audio.map (·.payload)) (by rw [List.length_map]; omega) rfl (by
      intro c hc
      simp only at hc
      rw [← ha] at hc
      exact picked_payload _ _ _ _ hc)
  simp only at a1 a2
  have hfit : (withKeys T as).length ≤ 50 ↔ AudioFits offer p as := by
    unfold withKeys AudioFits
    rw [hka]
    cases T <;> simp <;> omega
  have hans : ∀ a, Stream .audio port (withKeys T as) (T = true) (p.rtcpMux = true) a → AudioAnswer offer p port as a := by
    intro a h
    unfold AudioAnswer
    rw [hka]
    cases T with
    | false =>
      refine Or.inr ⟨by decide, ?_⟩
      rw [show (false = true) = False from by simp] at h
      exact h
    | true =>
      refine Or.inl ⟨rfl, ?_⟩
      rw [show (true = true) = True from by simp] at h
      exact h
  rw [hfit] at a1 a2
  have vspec : ∀ vp, V = true → (∀ a, Profile.videoStream ⟨as, VS, T, "sendrecv".toList, V, p.rtcpMux⟩ vp = some a → vs.length ≤ 50 ∧ (∀ c ∈ vs, GoodCodec c) ∧
        Stream .video vp vs False (p.rtcpMux = true) a) ∧ (vs.length ≤ 50 → (∀ c ∈ vs, GoodCodec c) →
        ∃ a, Profile.videoStream ⟨as, VS, T, "sendrecv".toList, V, p.rtcpMux⟩ vp = some a) := by
    intro vp h
    have := videoStream_spec ⟨as, VS, T, "sendrecv".toList, V, p.rtcpMux⟩ vp (p.video.map (·.payload)) (by rw [List.length_map]; omega) rfl (by
        intro c hc
        simp only at hc
        rw [hvs h, ← hv] at hc
        exact picked_payload _ _ _ _ hc)
    simp only [hvs h] at this ⊢
    exact this
  unfold Profile.build
  constructor
  · intro ans h
    cases hb : profileBase u i addr with
    | none => rw [hb] at h; cases h
    | some b =>
      rw [hb] at h
      obtain ⟨hu, rfl⟩ := (profileBase_iff _ _ _ _).mp hb
      simp only at h
      cases hs : Profile.audioStream ⟨as, VS, T, "sendrecv".toList, V, p.rtcpMux⟩ port with
      | none => rw [hs] at h; cases h
      | some a =>
        rw [hs] at h
        obtain ⟨x1, x2, x3⟩ := a1 a hs
        simp only at h
        rw [addMedia_lt _ _ (by simp)] at h
        simp only [List.nil_append] at h
        cases hVV : V with
        | false =>
          rw [hVV] at h hvi
          have hnv : ¬ Video offer p := by rw [hvi]; decide
          simp only [Bool.false_eq_true, if_false, Option.some.injEq] at h
          exact ⟨⟨hu, x1, x2, fun hx => absurd hx hnv⟩, a, [], hans a x3, Or.inr ⟨hnv, rfl⟩, h.symm⟩
        | true =>
          have hvid : Video offer p := hvi.mpr hVV
          have vs' := vspec
          rw [hVV] at h vs'
          simp only [if_true] at h
          unfold videoPort at h
          by_cases ho : port + 2 > 65535
          · rw [if_pos ho] at h; cases h
          · rw [if_neg ho] at h
            cases video with
            | some vp =>
              simp only at h
              cases hq : Profile.videoStream ⟨as, VS, T, "sendrecv".toList, true, p.rtcpMux⟩ vp with
              | none => rw [hq] at h; cases h
              | some v =>
                rw [hq] at h
                simp only at h
                rw [addMedia_lt _ _ (by simp)] at h
                simp only [List.cons_append, List.nil_append, Option.some.injEq] at h
                obtain ⟨y1, y2, y3⟩ := (vs' vp rfl).1 v hq
                exact ⟨⟨hu, x1, x2, fun _ => ⟨by omega, y1, y2⟩⟩, a, [v], hans a x3,
                  Or.inl ⟨hvid, v, vp, rfl, Or.inl rfl, y3⟩, h.symm⟩
            | none =>
              simp only at h
              cases hq : Profile.videoStream ⟨as, VS, T, "sendrecv".toList, true, p.rtcpMux⟩ (port + 2) with
              | none => rw [hq] at h; cases h
              | some v =>
                rw [hq] at h
                simp only at h
                rw [addMedia_lt _ _ (by simp)] at h
                simp only [List.cons_append, List.nil_append, Option.some.injEq] at h
                obtain ⟨y1, y2, y3⟩ := (vs' (port + 2) rfl).1 v hq
                exact ⟨⟨hu, x1, x2, fun _ => ⟨by omega, y1, y2⟩⟩, a, [v], hans a x3,
                  Or.inl ⟨hvid, v, port + 2, rfl, Or.inr ⟨rfl, rfl⟩, y3⟩, h.symm⟩
  · intro hu hf hg hvid
    obtain ⟨a, hs⟩ := a2 hf hg
    rw [(profileBase_iff u i addr _).mpr ⟨hu, rfl⟩]
    simp only
    rw [hs]
    simp only
    rw [addMedia_lt _ _ (by simp)]
    simp only [List.nil_append]
    cases hVV : V with
    | false => exact ⟨_, rfl⟩
    | true =>
      obtain ⟨z1, z2, z3⟩ := hvid (hvi.mpr hVV)
      have vs' := vspec
      rw [hVV] at vs'
      simp only [if_true]
      unfold videoPort
      rw [if_neg (by omega)]
      cases video with
      | some vp =>
        obtain ⟨v, hq⟩ := (vs' vp rfl).2 z2 z3
        simp only [hq]
        rw [addMedia_lt _ _ (by simp)]
        exact ⟨_, rfl⟩
      | none =>
        obtain ⟨v, hq⟩ := (vs' (port + 2) rfl).2 z2 z3
        simp only [hq]
        rw [addMedia_lt _ _ (by simp)]
        exact ⟨_, rfl⟩

/-- **C98.** The answer from a profile is exactly this: the session lines of the answerer, one stream for audio with the
offered codecs that the profile has, and one for video if the offer has one and the profile supports it. -/
theorem C98_answer (offer : Session) (p : Profile) (u i addr : Str) (port : Nat) (video : Option Nat) (as vs : List Codec)
    (ans : Session) (ha : PicksAll (p.audio.map (·.payload)) .audio offer.media as)
    (hv : PicksAll (p.video.map (·.payload)) .video offer.media vs)
    (hp : p.audio.length ≤ 40 ∧ p.video.length ≤ 40) (h : profileAnswer offer p u i addr port video = some ans) :
    ∃ a rest, AudioAnswer offer p port as a ∧
      ((Video offer p ∧ ∃ v vp, rest = [v] ∧ (video = some vp ∨ video = none ∧ vp = port + 2) ∧
          Stream .video vp vs False (p.rtcpMux = true) v) ∨
        (¬ Video offer p ∧ rest = [])) ∧
      ans = { origin := ⟨u, i, "0".toList, addr.contains ':', addr⟩, name := "siphon".toList,
              connection := some ⟨addr.contains ':', addr⟩, times := [⟨0, 0, []⟩], media := a :: rest } :=
  ((profileAnswer_spec offer p u i addr port video as vs ha hv hp).1 ans h).2

/-- **C98.** It panics unless the names and the address can be written, every codec taken from the offer has a name that can
be written and a usual clock rate, there are at most fifty of them in a stream, and the port for video exists. -/
theorem C98_panics_iff (offer : Session) (p : Profile) (u i addr : Str) (port : Nat) (video : Option Nat) (as vs : List Codec)
    (ha : PicksAll (p.audio.map (·.payload)) .audio offer.media as)
    (hv : PicksAll (p.video.map (·.payload)) .video offer.media vs)
    (hp : p.audio.length ≤ 40 ∧ p.video.length ≤ 40) :
    profileAnswer offer p u i addr port video = none ↔
      ¬ ((Field u 256 ∧ Field i 256 ∧ Field addr 256) ∧ AudioFits offer p as ∧ (∀ c ∈ as, GoodCodec c) ∧
        (Video offer p → port + 2 ≤ 65535 ∧ vs.length ≤ 50 ∧ ∀ c ∈ vs, GoodCodec c)) := by
  obtain ⟨h1, h2⟩ := profileAnswer_spec offer p u i addr port video as vs ha hv hp
  constructor
  · rintro h ⟨a, b, c, d⟩
    obtain ⟨ans, e⟩ := h2 a b c d
    rw [h] at e
    cases e
  · intro h
    cases e : profileAnswer offer p u i addr port video with
    | none => rfl
    | some ans => exact absurd (h1 ans e).1 h

/-- Every offer has codecs to be taken, in one way. -/
theorem C98_picks (want : List Nat) (k : MediaType) (ms : List Media) :
    (∃ cs, PicksAll want k ms cs) ∧ ∀ cs ds, PicksAll want k ms cs → PicksAll want k ms ds → cs = ds := by
  refine ⟨⟨_, (picksAll_iff want k ms _).mpr rfl⟩, ?_⟩
  intro cs ds h1 h2
  rw [picksAll_iff] at h1 h2
  rw [← h1, h2]

/-- **C98, in part.** The answer has the streams of the offer, kind by kind, exactly if the offer is one stream of audio, or
one of audio and then one of video where video is supported. Missing: it should for every offer. -/
theorem C98_mirrors_partial (offer : Session) (p : Profile) (u i addr : Str) (port : Nat) (video : Option Nat) (ans : Session)
    (hp : p.audio.length ≤ 40 ∧ p.video.length ≤ 40) (h : profileAnswer offer p u i addr port video = some ans) :
    ans.media.map (·.kind) = offer.media.map (·.kind) ↔
      offer.media.map (·.kind) = [.audio] ∨
      (offer.media.map (·.kind) = [.audio, .video] ∧ (p.enableVideo = true ∨ p.video ≠ [])) := by
  obtain ⟨⟨as, ha⟩, _⟩ := C98_picks (p.audio.map (·.payload)) .audio offer.media
  obtain ⟨⟨vs, hv⟩, _⟩ := C98_picks (p.video.map (·.payload)) .video offer.media
  obtain ⟨a, rest, h1, h2, rfl⟩ := C98_answer offer p u i addr port video as vs ans ha hv hp h
  have hk : a.kind = .audio := by
    rcases h1 with ⟨_, _, _, _, _, _, e⟩ | ⟨_, _, _, _, _, _, e⟩ <;> rw [e]
  have hhas : Has offer .video ↔ MediaType.video ∈ offer.media.map (·.kind) := by
    unfold Has
    rw [List.mem_map]
  simp only [List.map_cons, hk]
  rcases h2 with ⟨hvid, v, vp, rfl, _, _, _, _, _, _, e⟩ | ⟨hvid, rfl⟩
  · have hkv : v.kind = .video := by rw [e]
    simp only [List.map_cons, List.map_nil, hkv]
    constructor
    · intro e; exact Or.inr ⟨e.symm, hvid.1⟩
    · rintro (e | ⟨e, _⟩)
      · have := hhas.mp hvid.2
        rw [e] at this
        simp at this
      · exact e.symm
  · simp only [List.map_nil]
    constructor
    · intro e; exact Or.inl e.symm
    · rintro (e | ⟨e, hs⟩)
      · exact e.symm
      · refine absurd ⟨hs, hhas.mpr ?_⟩ hvid
        rw [e]
        simp

/-! ### An offer that is answered -/

/-- The start of every offer below. -/
def exStart : Str := "v=0\r\no=a 1 1 IN IP4 192.0.2.1\r\ns=-\r\nc=IN IP4 192.0.2.1\r\nt=0 0\r\n".toList

/-- The start of every answer below. -/
def exBegin : Str := "v=0\r\no=siphond 9 0 IN IP4 192.0.2.9\r\ns=siphon\r\nc=IN IP4 192.0.2.9\r\nt=0 0\r\n".toList

/-- siphond, with the port 30000 for audio. -/
def exSiphond (video : Option Nat) (streams : Str) : Outcome :=
  siphondAnswer "siphond".toList "9".toList "192.0.2.9".toList 30000 video (exStart ++ streams)

theorem ex_siphond_answer : exSiphond (some 30010)
    "m=audio 4000 RTP/AVP 8 97 0 101\r\na=rtpmap:8 PCMA/8000\r\na=rtpmap:0 PCMU/8000\r\nm=video 4002 RTP/AVP 97\r\na=rtpmap:97 VP8/90000\r\n".toList =
    .answer (exBegin ++
      "m=audio 30000 RTP/AVP 8 0 101\r\na=sendrecv\r\na=rtpmap:8 PCMA/8000\r\na=rtpmap:0 PCMU/8000\r\na=rtpmap:101 telephone-event/8000\r\na=fmtp:101 0-16\r\na=rtcp-mux\r\nm=video 30010 RTP/AVP 97\r\na=sendrecv\r\na=rtpmap:97 VP8/90000\r\na=rtcp-mux\r\n".toList) := by
  decide +kernel

/-- The streams of this offer. -/
def exOffered : Session :=
  { media := [
      { kind := .audio, port := 4000, formats := ["8".toList, "97".toList, "0".toList, "101".toList],
        rtpmaps := [(8, ⟨8, "PCMA".toList, 8000, none⟩), (0, ⟨0, "PCMU".toList, 8000, none⟩)] },
      { kind := .video, port := 4002, formats := ["97".toList], rtpmaps := [(97, ⟨97, "VP8".toList, 90000, none⟩)] }] }

/-- The hypotheses of `C98_answer` hold for it. -/
example : PicksAll (audioVideo.audio.map (·.payload)) .audio exOffered.media
      [⟨8, "PCMA".toList, 8000⟩, ⟨0, "PCMU".toList, 8000⟩] ∧
    PicksAll (audioVideo.video.map (·.payload)) .video exOffered.media [⟨97, "VP8".toList, 90000⟩] ∧
    Video exOffered audioVideo ∧ Keys exOffered audioVideo ∧
    ∃ ans, profileAnswer exOffered audioVideo "siphond".toList "9".toList "192.0.2.9".toList 30000 (some 30010) = some ans := by
  rw [picksAll_iff, picksAll_iff, video_iff, keys_iff]
  refine ⟨by decide +kernel, by decide +kernel, by decide +kernel, by decide +kernel, ?_⟩
  rw [← Option.isSome_iff_exists]
  decide +kernel

/-! ### Offers that stop the handler -/

/-- A clock rate of 1, a codec without a name, or the same format fifty times with key presses: siphond's handler panics. -/
theorem C98_panics :
    exSiphond none "m=audio 4000 RTP/AVP 0\r\na=rtpmap:0 PCMU/1\r\n".toList = .crash ∧
    exSiphond none "m=audio 4000 RTP/AVP 0\r\na=rtpmap:0 /8000\r\n".toList = .crash ∧
    exSiphond none ("m=audio 4000 RTP/AVP 101".toList ++ (List.replicate 49 " 0".toList).flatten ++
      "\r\na=rtpmap:0 PCMU/8000\r\nm=audio 4002 RTP/AVP 0\r\na=rtpmap:0 PCMU/8000\r\n".toList) = .crash := by
  decide +kernel

/-- The port for video is there, but the sum that is not used overflows. -/
theorem C98_port :
    siphondAnswer "siphond".toList "9".toList "192.0.2.9".toList 65534 (some 4002)
      (exStart ++ "m=video 4002 RTP/AVP 97\r\na=rtpmap:97 VP8/90000\r\n".toList) = .crash := by
  decide +kernel

/-! ### Offers that are answered with something else -/

/-- A stream of video and then one of audio: the answer has them the other way around, so that the offerer takes the answer for
audio as the one for video. -/
theorem C98_order : exSiphond (some 30010)
    "m=video 4002 RTP/AVP 97\r\na=rtpmap:97 VP8/90000\r\nm=audio 4000 RTP/AVP 0\r\na=rtpmap:0 PCMU/8000\r\n".toList =
    .answer (exBegin ++
      "m=audio 30000 RTP/AVP 0\r\na=sendrecv\r\na=rtpmap:0 PCMU/8000\r\na=rtcp-mux\r\nm=video 30010 RTP/AVP 97\r\na=sendrecv\r\na=rtpmap:97 VP8/90000\r\na=rtcp-mux\r\n".toList) := by
  decide +kernel

/-- Video without support for it: it is not refused with port 0, but left out. -/
theorem C98_left_out : exSiphond none
    "m=audio 4000 RTP/AVP 0\r\na=rtpmap:0 PCMU/8000\r\nm=video 4002 RTP/AVP 97\r\na=rtpmap:97 VP8/90000\r\n".toList =
    .answer (exBegin ++ "m=audio 30000 RTP/AVP 0\r\na=sendrecv\r\na=rtpmap:0 PCMU/8000\r\na=rtcp-mux\r\n".toList) := by
  decide +kernel

/-- Two streams of audio: there is one stream in the answer. -/
theorem C98_merged : exSiphond none
    "m=audio 4000 RTP/AVP 0\r\na=rtpmap:0 PCMU/8000\r\nm=audio 4002 RTP/AVP 8\r\na=rtpmap:8 PCMA/8000\r\n".toList =
    .answer (exBegin ++
      "m=audio 30000 RTP/AVP 0 8\r\na=sendrecv\r\na=rtpmap:0 PCMU/8000\r\na=rtpmap:8 PCMA/8000\r\na=rtcp-mux\r\n".toList) := by
  decide +kernel

/-- An offer of PCMA without a map, as is usual for the fixed numbers, is answered with PCMU, which was not offered. -/
theorem C98_not_offered : exSiphond none "m=audio 4000 RTP/AVP 8\r\n".toList =
    .answer (exBegin ++ "m=audio 30000 RTP/AVP 0\r\na=sendrecv\r\na=rtcp-mux\r\n".toList) := by
  decide +kernel

/-- A stream that is only sent (hold) or not used at all (port 0), or one over SRTP: the answer is an open stream over RTP. -/
theorem C98_ignored :
    exSiphond none "m=audio 4000 RTP/AVP 0\r\na=rtpmap:0 PCMU/8000\r\na=sendonly\r\n".toList =
      .answer (exBegin ++ "m=audio 30000 RTP/AVP 0\r\na=sendrecv\r\na=rtpmap:0 PCMU/8000\r\na=rtcp-mux\r\n".toList) ∧
    exSiphond none "m=audio 0 RTP/AVP 0\r\na=rtpmap:0 PCMU/8000\r\n".toList =
      .answer (exBegin ++ "m=audio 30000 RTP/AVP 0\r\na=sendrecv\r\na=rtpmap:0 PCMU/8000\r\na=rtcp-mux\r\n".toList) ∧
    exSiphond none "m=audio 4000 RTP/SAVP 0\r\na=rtpmap:0 PCMU/8000\r\n".toList =
      .answer (exBegin ++ "m=audio 30000 RTP/AVP 0\r\na=sendrecv\r\na=rtpmap:0 PCMU/8000\r\na=rtcp-mux\r\n".toList) := by
  decide +kernel

/-! ## Offers of the two profiles -/

/-- The audio stream both profiles offer. -/
def offeredAudio (port : Nat) : Media :=
  { kind := .audio, port := port, formats := ["0".toList, "8".toList, "101".toList]
    rtpmaps := [(101, ⟨101, "telephone-event".toList, 8000, none⟩), (8, ⟨8, "PCMA".toList, 8000, none⟩), (0, ⟨0, "PCMU".toList, 8000, none⟩)]
    attributes := [.property "sendrecv".toList, .value "rtpmap".toList "0 PCMU/8000".toList, .value "rtpmap".toList "8 PCMA/8000".toList,
      .value "rtpmap".toList "101 telephone-event/8000".toList, .value "fmtp".toList "101 0-16".toList, .property "rtcp-mux".toList] }

/-- The video stream of the profile with video. -/
def offeredVideo (port : Nat) : Media :=
  { kind := .video, port := port, formats := ["96".toList, "97".toList]
    rtpmaps := [(97, ⟨97, "VP8".toList, 90000, none⟩), (96, ⟨96, "H264".toList, 90000, none⟩)]
    attributes := [.property "sendrecv".toList, .value "rtpmap".toList "96 H264/90000".toList, .value "rtpmap".toList "97 VP8/90000".toList,
      .property "rtcp-mux".toList] }

theorem audioOnly_stream (port : Nat) : audioOnly.audioStream port = some (offeredAudio port) := by rfl
theorem audioVideo_audio (port : Nat) : audioVideo.audioStream port = some (offeredAudio port) := by rfl
theorem audioVideo_video (port : Nat) : audioVideo.videoStream port = some (offeredVideo port) := by rfl

/-- **C98.** What the two profiles offer: PCMU, PCMA and keys, with video H.264 and VP8 as well. Building the offer panics
exactly if a text is not a valid field or, with video, if the port after the audio port's RTCP port does not exist. -/
theorem C98_offer (u i addr : Str) (port : Nat) (video : Option Nat) (s : Session) :
    (audioOnly.build u i addr port video = some s ↔ (Field u 256 ∧ Field i 256 ∧ Field addr 256) ∧
      s = { origin := ⟨u, i, "0".toList, addr.contains ':', addr⟩, name := "siphon".toList,
            connection := some ⟨addr.contains ':', addr⟩, times := [⟨0, 0, []⟩], media := [offeredAudio port] }) ∧
    (audioVideo.build u i addr port video = some s ↔ (Field u 256 ∧ Field i 256 ∧ Field addr 256) ∧ port + 2 ≤ 65535 ∧
      ∃ vp, (video = some vp ∨ video = none ∧ vp = port + 2) ∧
      s = { origin := ⟨u, i, "0".toList, addr.contains ':', addr⟩, name := "siphon".toList,
            connection := some ⟨addr.contains ':', addr⟩, times := [⟨0, 0, []⟩], media := [offeredAudio port, offeredVideo vp] }) := by
  constructor
  · unfold Profile.build
    rw [audioOnly_stream]
    cases hb : profileBase u i addr with
    | none =>
      simp only
      constructor
      · intro h; cases h
      · rintro ⟨hf, _⟩
        have := (profileBase_iff u i addr _).mpr ⟨hf, rfl⟩
        rw [hb] at this; cases this
    | some b =>
      obtain ⟨hf, rfl⟩ := (profileBase_iff u i addr b).mp hb
      simp only
      rw [addMedia_lt _ _ (by simp)]
      simp only [audioOnly, Bool.false_eq_true, if_false, Option.some.injEq, List.nil_append]
      exact ⟨fun h => ⟨hf, h.symm⟩, fun h => h.2.symm⟩
  · unfold Profile.build
    rw [audioVideo_audio]
    cases hb : profileBase u i addr with
    | none =>
      simp only
      constructor
      · intro h; cases h
      · rintro ⟨hf, _⟩
        have := (profileBase_iff u i addr _).mpr ⟨hf, rfl⟩
        rw [hb] at this; cases this
    | some b =>
      obtain ⟨hf, rfl⟩ := (profileBase_iff u i addr b).mp hb
      simp only
      rw [addMedia_lt _ _ (by simp)]
      simp only [show audioVideo.enableVideo = true from rfl, if_true, audioVideo_video, List.nil_append]
      unfold videoPort
      by_cases hp : port + 2 > 65535
      · rw [if_pos hp]
        simp only
        exact ⟨fun h => (by cases h), fun h => absurd h.2.1 (by omega)⟩
      · rw [if_neg hp]
        cases video with
        | some vp =>
          simp only
          rw [addMedia_lt _ _ (by simp)]
          simp only [Option.some.injEq, List.cons_append, List.nil_append]
          constructor
          · intro h; exact ⟨hf, by omega, vp, Or.inl rfl, h.symm⟩
          · rintro ⟨_, _, vp', h | ⟨h, _⟩, rfl⟩
            · cases h; rfl
            · cases h
        | none =>
          simp only
          rw [addMedia_lt _ _ (by simp)]
          simp only [Option.some.injEq, List.cons_append, List.nil_append]
          constructor
          · intro h; exact ⟨hf, by omega, port + 2, Or.inr ⟨trivial, rfl⟩, h.symm⟩
          · rintro ⟨_, _, vp', h | ⟨_, rfl⟩, rfl⟩
            · cases h
            · rfl

example : (audioVideo.build "a".toList "7".toList "192.0.2.1".toList 4000 none).map (fun s => s.media.map (·.port)) = some [4000, 4002] := by
  decide +kernel

end Siphon.Sdp
