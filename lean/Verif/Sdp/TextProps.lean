import Verif.Sdp.TextRound
set_option linter.unusedSimpArgs false
/-!
# Properties: reading and writing session descriptions (C96, C97)
-/
namespace Siphon.Sdp
open Siphon.TextSpec Spec

theorem parseSdp_iff (t : Str) (s : Session) : parseSdp t = some s ↔ Fits t ∧ ∃ ls, Text ls t ∧ build ls = some s := by
  unfold parseSdp
  rw [fits_iff]
  cases hw : withinLimits t with
  | false => simp
  | true =>
    simp only [Bool.not_true, Bool.false_eq_true, if_false, true_and]
    cases ht : trim (parseLines (t.length + 1) t).2 with
    | nil =>
      simp only [List.isEmpty_nil, Bool.not_true, Bool.false_eq_true, if_false]
      have h0 := (parseLines_iff (t.length + 1) t (by omega) _).mp ⟨ht, rfl⟩
      constructor
      · intro h; exact ⟨_, h0, h⟩
      · rintro ⟨ls, h1, h2⟩
        rw [((parseLines_iff (t.length + 1) t (by omega) ls).mpr h1).2]
        exact h2
    | cons c r =>
      simp only [List.isEmpty_cons, Bool.not_false, if_true]
      constructor
      · intro h; cases h
      · rintro ⟨ls, h1, _⟩
        have := ((parseLines_iff (t.length + 1) t (by omega) ls).mpr h1).1
        rw [ht] at this
        cases this

/-! ## C96: exactly the texts that follow the grammar are read, and as what they say -/

/-- A description that is read fits the limits, and says what was read from it. -/
theorem C96_reads (t : Str) (s : Session) (h : parseSdp t = some s) : Fits t ∧ ∃ ls, Text ls t ∧ Describes ls s := by
  obtain ⟨h1, ls, h2, h3⟩ := (parseSdp_iff t s).mp h
  exact ⟨h1, ls, h2, build_describes (text_bare h2) h3⟩

/-- Every text that fits the limits and describes a session is read as that session. -/
theorem C96_accepts (t : Str) (ls : List SdpLine) (s : Session) (h1 : Fits t) (h2 : Text ls t) (h3 : Describes ls s) :
    ∃ s', parseSdp t = some s' ∧ Same s s' := by
  obtain ⟨s', h4⟩ := describes_build (text_bare h2) h3
  exact ⟨s', (parseSdp_iff t s').mpr ⟨h1, ls, h2, h4⟩, describes_same h3 (build_describes (text_bare h2) h4)⟩

/-- A text has one reading. -/
theorem C96_one (t : Str) (ls ls' : List SdpLine) (s s' : Session) (h1 : Text ls t) (h2 : Text ls' t) (h3 : Describes ls s)
    (h4 : Describes ls' s') : ls = ls' ∧ Same s s' := by
  have e1 := ((parseLines_iff (t.length + 1) t (by omega) ls).mpr h1).2
  have e2 := ((parseLines_iff (t.length + 1) t (by omega) ls').mpr h2).2
  have : ls = ls' := e1.symm.trans e2
  subst this
  exact ⟨rfl, describes_same h3 h4⟩

/-- An offer with two streams. -/
def exText : Str :=
  "v=0\r\no=alice 2890844526 2890844526 IN IP4 192.0.2.1\r\ns=-\r\nc=IN IP4 192.0.2.1\r\nt=0 0\r\nm=audio 49170 RTP/AVP 0 97\r\na=rtpmap:97 opus/48000/2\r\na=sendrecv\r\nm=video 0 RTP/SAVPF 96\r\n".toList

/-- What it says. -/
def exRead : Session :=
  { origin := ⟨"alice".toList, "2890844526".toList, "2890844526".toList, false, "192.0.2.1".toList⟩, name := "-".toList,
    connection := some ⟨false, "192.0.2.1".toList⟩, times := [⟨0, 0, []⟩],
    media := [{ kind := .audio, port := 49170, protocol := .rtpAvp, formats := ["0".toList, "97".toList],
                attributes := [.value "rtpmap".toList "97 opus/48000/2".toList, .property "sendrecv".toList],
                rtpmaps := [(97, ⟨97, "opus".toList, 48000, some "2".toList⟩)] },
              { kind := .video, port := 0, protocol := .rtpSavpf, formats := ["96".toList] }] }

theorem exText_reads : parseSdp exText = some exRead := by decide +kernel

example : Fits exText ∧ ∃ ls, Text ls exText ∧ Describes ls exRead := C96_reads _ _ exText_reads

example : ∃ ls, Fits exText ∧ Text ls exText ∧ Describes ls exRead := by
  obtain ⟨h1, ls, h2, h3⟩ := C96_reads _ _ exText_reads
  exact ⟨ls, h1, h2, h3⟩

/-- No description with a protocol that only begins like a known one is read: a known protocol is never part of a longer name. -/
theorem C96_protocols (t : Str) (s : Session) (h : parseSdp t = some s) (m : Media) (hm : m ∈ s.media) (n : Str)
    (hp : m.protocol = .other n) : ∀ k ∈ ["RTP/SAVP".toList, "RTP/AVP".toList, "UDP".toList, "TCP".toList], ¬ k <+: n := by
  obtain ⟨_, ls, h1, h2⟩ := C96_reads t s h
  have hw := describes_writable (text_good h1) h2
  obtain ⟨-, -, -, -, -, -, -, -, -, -, -, -, -, -, -, -, -, -, hg⟩ := hw
  obtain ⟨-, -, -, hpn, -⟩ := hg m hm
  rcases hpn n hp with ⟨h, _⟩ | ⟨h, _⟩ | ⟨h, _⟩ | ⟨h, _⟩ | ⟨h, _⟩ | ⟨h, _⟩ | ⟨h, _⟩ | ⟨_, _, _, _, _, h⟩
  all_goals first | (rw [hp] at h; cases h; done) | exact h

example : ∃ t s m, parseSdp t = some s ∧ m ∈ s.media ∧ m.protocol = .other "PSTN".toList :=
  ⟨"v=0\no=- 1 1 IN IP4 h\ns=-\nt=0 0\nm=audio 9 PSTN 0\n".toList, _, _, rfl, List.mem_singleton.mpr rfl, rfl⟩

/-- The text of an offer with one stream over a protocol. -/
def offerOver (proto : Str) : Str :=
  "v=0\r\no=- 1 1 IN IP4 192.0.2.1\r\ns=-\r\nt=0 0\r\nm=audio 9 ".toList ++ (proto ++ " 0\r\n".toList)

/-- The profiles of RFC 4585, RFC 4975, RFC 7345 and RFC 4583 make a whole offer unreadable. -/
theorem C96_unreadable_profiles :
    parseSdp (offerOver "RTP/AVPF".toList) = none ∧ parseSdp (offerOver "UDP/TLS/RTP/SAVP".toList) = none ∧
    parseSdp (offerOver "TCP/MSRP".toList) = none ∧ parseSdp (offerOver "UDPTL".toList) = none ∧
    parseSdp (offerOver "TCP/BFCP".toList) = none ∧ (parseSdp (offerOver "RTP/AVP".toList)).isSome = true := by
  decide +kernel

/-- A bandwidth line without a number takes the following line into its name: the attribute is lost. -/
theorem C96_swallowed :
    ∃ s, parseSdp "v=0\r\no=- 1 1 IN IP4 192.0.2.1\r\ns=-\r\nb=X\r\na=ptime:20\r\nt=0 0\r\n".toList = some s ∧
      s.attributes = [] ∧ s.bandwidth = [⟨"X\r\na=ptime".toList, 20⟩] := by
  refine ⟨{ origin := ⟨"-".toList, "1".toList, "1".toList, false, "192.0.2.1".toList⟩, name := "-".toList,
            bandwidth := [⟨"X\r\na=ptime".toList, 20⟩], times := [⟨0, 0, []⟩] }, ?_, rfl, rfl⟩
  decide +kernel

/-- Lines need not end: after a number the next line may follow at once. -/
theorem C96_joined :
    parseSdp "v=0o=- 1 1 IN IP4 192.0.2.1\r\ns=-\r\nt=0 0m=audio 9 RTP/AVP 0".toList =
      parseSdp "v=0\r\no=- 1 1 IN IP4 192.0.2.1\r\ns=-\r\nt=0 0\r\nm=audio 9 RTP/AVP 0".toList ∧
    (parseSdp "v=0o=- 1 1 IN IP4 192.0.2.1\r\ns=-\r\nt=0 0m=audio 9 RTP/AVP 0".toList).isSome = true := by
  decide +kernel

/-! ## C97: what is written is read back -/

theorem same_writable {s s' : Session} (h : SameLines s s') (hw : Writable s') : Writable s := by
  obtain ⟨h1, h2⟩ := h
  have e : s = { s' with media := s.media } := by
    have := congrArg (fun x : Session => { x with media := s.media }) h1
    exact this
  obtain ⟨w1, w2, w3, w4, w5, w6, w7, w8, w9, w10, w11, w12, w13, w14, w15, w16, w17, w18, w19⟩ := hw
  rw [e]
  refine ⟨w1, w2, w3, w4, w5, w6, w7, w8, w9, w10, w11, w12, w13, w14, w15, w16, w17, w18, ?_⟩
  intro m hm
  obtain ⟨m', hm', hp⟩ := zip_mem h2 hm
  have em : m = { m' with rtpmaps := m.rtpmaps } := by
    have := congrArg (fun x : Media => { x with rtpmaps := m.rtpmaps }) hp
    exact this
  rw [em]
  exact w19 m' hm'

theorem parse_serialize {s : Session} (hw : Writable s) (hf : Fits (serializeSdp s)) :
    parseSdp (serializeSdp s) = some { s with media := s.media.map withMaps } :=
  (parseSdp_iff _ _).mpr ⟨hf, _, text_of_zip (session_zip hw), build_sdp hw⟩

/-- A session that can be written and fits is read back: the same lines, with the maps that its attributes give. -/
theorem C97_round (s : Session) (hw : Writable s) (hf : Fits (serializeSdp s)) :
    ∃ s', parseSdp (serializeSdp s) = some s' ∧ SameLines s s' ∧
      ∀ m ∈ s'.media, ∀ pt r, Tbl.get m.rtpmaps pt = some r ↔ LastMap m.attributes pt r := by
  refine ⟨_, parse_serialize hw hf, ⟨rfl, ?_⟩, ?_⟩
  · exact zip_map withMaps s.media (fun m _ => rfl)
  · intro m hm pt r
    obtain ⟨x, _, rfl⟩ := List.mem_map.mp hm
    exact rtpmaps_iff _ pt r

/-- Exactly the writable sessions are read back. -/
theorem C97_exact (s : Session) (hf : Fits (serializeSdp s)) :
    (∃ s', parseSdp (serializeSdp s) = some s' ∧ SameLines s s') ↔ Writable s := by
  constructor
  · rintro ⟨s', h1, h2⟩
    obtain ⟨_, ls, h3, h4⟩ := C96_reads _ _ h1
    exact same_writable h2 (describes_writable (text_good h3) h4)
  · intro hw
    obtain ⟨s', h1, h2, _⟩ := C97_round s hw hf
    exact ⟨s', h1, h2⟩

/-- What has been read can be written. -/
theorem C97_writable (t : Str) (s : Session) (h : parseSdp t = some s) : Writable s := by
  obtain ⟨_, ls, h3, h4⟩ := C96_reads _ _ h
  exact describes_writable (text_good h3) h4

theorem parse_maps {t : Str} {s : Session} (h : parseSdp t = some s) : s.media.map withMaps = s.media := by
  obtain ⟨_, ls, _, h3⟩ := (parseSdp_iff t s).mp h
  unfold build at h3
  cases h1 : addLines ls {} with
  | none => rw [h1] at h3; cases h3
  | some st =>
    rw [h1] at h3
    obtain ⟨_, o, _, n, _, _, _, rfl⟩ := (finish_iff _ _).mp h3
    simp only [List.map_map]
    rfl

/-- Reading, writing and reading again gives the same session. -/
theorem C97_stable (t : Str) (s : Session) (h : parseSdp t = some s) (hf : Fits (serializeSdp s)) :
    parseSdp (serializeSdp s) = some s := by
  rw [parse_serialize (C97_writable t s h) hf, parse_maps h]

theorem exText_written : serializeSdp exRead = exText := by decide +kernel

example : Writable exRead ∧ Fits (serializeSdp exRead) := by
  refine ⟨C97_writable _ _ exText_reads, ?_⟩
  rw [exText_written]
  exact (C96_reads _ _ exText_reads).1

/-- What is written for a user name with a space cannot be read. -/
theorem C97_user_name :
    parseSdp (serializeSdp { exRead with origin := ⟨"alice b".toList, "1".toList, "1".toList, false, "192.0.2.1".toList⟩ }) = none := by
  decide +kernel

/-- A stream without formats is written with the format 0: it is read back as an offer of PCMU. -/
theorem C97_no_format :
    ∃ s, parseSdp (serializeSdp { exRead with media := [{ kind := .audio, port := 9 }] }) = some s ∧
      s.media = [{ kind := .audio, port := 9, formats := ["0".toList] }] := by
  refine ⟨{ exRead with media := [{ kind := .audio, port := 9, formats := ["0".toList] }] }, ?_, rfl⟩
  decide +kernel

/-- Codec parameters are written as they are: a line end in them adds an attribute, here one that stops the stream. -/
theorem C97_injection :
    ∃ s m, parseSdp (serializeSdp { exRead with media :=
        [{ kind := .audio, port := 9, formats := ["0".toList], attributes := setFmtp 0 "x\r\na=inactive".toList [] }] }) = some s ∧
      s.media = [m] ∧ m.attributes = [.value "fmtp".toList "0 x".toList, .property "inactive".toList] := by
  refine ⟨{ exRead with media := [{ kind := .audio, port := 9, formats := ["0".toList],
                                    attributes := [.value "fmtp".toList "0 x".toList, .property "inactive".toList] }] }, _, ?_, rfl, rfl⟩
  decide +kernel

end Siphon.Sdp
