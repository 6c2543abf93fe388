import Verif.Offer.PropsAnswer
import Verif.Offer.PropsHold
/-!
# C123 to C125: cases and counterexamples
-/
namespace Siphon.Offer
open Siphon.TextSpec Spec

def at_ (n : String) (v : String) : Attr := ⟨n.toList, some v.toList⟩
def flag (n : String) : Attr := ⟨n.toList, none⟩

/-- The entries as they were put in. -/
def asIs : Order := ⟨fun t => t, fun _ => .refl _⟩
/-- The other way round. -/
def backwards : Order := ⟨fun t => t.reverse, fun t => List.reverse_perm t⟩

/-- An offer with audio, video, and something else. -/
def audio : Media :=
  { media := "audio".toList, port := 49170, proto := "RTP/AVP".toList, fmt := ["0".toList, "96".toList, "101".toList],
    attributes := [at_ "rtpmap" "96 opus/48000/2", at_ "fmtp" "96 useinbandfec=1", at_ "rtpmap" "101 telephone-event/8000",
      flag "sendonly", at_ "curr" "qos e2e send", at_ "des" "qos mandatory e2e send", at_ "curr" "qos local none"],
    mid := some "a".toList }

def video : Media :=
  { media := "video".toList, port := 49172, proto := "RTP/AVP".toList, fmt := ["31".toList], attributes := [at_ "rtpmap" "31 H261/90000"] }

def offer : Session :=
  { origin := ⟨"alice".toList, "1".toList, "7".toList, "IN".toList, "IP4".toList, "10.0.0.1".toList⟩, name := "call".toList,
    media := [audio, video] }

def opts : Options :=
  { address := "10.0.0.2".toList, basePort := 30000, audio := [⟨"PCMU".toList, 8000, some 1⟩, ⟨"opus".toList, 48000, some 2⟩],
    video := [⟨"H264".toList, 90000, none⟩], username := "bob".toList, sessionId := "2".toList }

/-- The answer: the first stream is taken with two formats, the second refused. -/
def taken : Media :=
  { media := "audio".toList, port := 30000, proto := "RTP/AVP".toList, fmt := ["0".toList, "96".toList],
    attributes := [at_ "rtpmap" "0 PCMU/8000", at_ "rtpmap" "96 opus/48000/2", at_ "fmtp" "96 useinbandfec=1", flag "recvonly",
      at_ "curr" "qos e2e recv", at_ "curr" "qos remote none", at_ "des" "qos mandatory e2e recv"],
    mid := some "a".toList }

theorem offer_answered :
    (generateAnswer (fun _ => asIs) offer opts = .done (some
      { origin := ⟨"bob".toList, "2".toList, "0".toList, "IN".toList, "IP4".toList, "10.0.0.2".toList⟩, name := "call".toList,
        connection := some ("IN".toList, "IP4".toList, "10.0.0.2".toList), media := [taken, rejected video] })) := by
  decide +kernel

/-- The hypotheses of C123 are met: the first stream is taken, the second refused. -/
example : Takes opts audio taken 30000 :=
  negotiate_takes asIs audio taken opts 30000 (by decide +kernel)

example : ∃ p r, Common opts audio p r := by
  apply Classical.byContradiction
  intro h
  have := (negotiate_none asIs audio opts 30000).mpr (fun p r hc => h ⟨p, r, hc⟩)
  revert this
  decide +kernel

example : ∀ p r, ¬ Common opts video p r := (negotiate_none asIs video opts 30000).mp (by decide +kernel)

/-- One stream is taken. -/
example : Count opts 0 offer.media 1 := by
  refine .take ⟨by decide, ?_⟩ (.refuse ?_ .nil)
  · apply Classical.byContradiction
    intro h
    have := (negotiate_none asIs audio opts 30000).mpr (fun p r hc => h ⟨p, r, hc⟩)
    revert this
    decide +kernel
  · rintro ⟨_, p, r, h⟩
    exact (negotiate_none asIs video opts 30000).mp (by decide +kernel) p r h

/-- C123 (finding): the order of the formats, in which the offerer says what it prefers, is that of a hash map: the same
offer can get different answers. -/
theorem C123_order_counterexample :
    generateAnswer (fun _ => asIs) offer opts ≠ generateAnswer (fun _ => backwards) offer opts := by
  decide +kernel

/-- C123 (finding): a payload type that has an `rtpmap` attribute but is not among the formats of the stream is answered. -/
theorem C123_unlisted_counterexample :
    ∃ m a, negotiateMedia asIs m opts 30000 = some a ∧ "96".toList ∉ m.fmt ∧ "96".toList ∈ a.fmt :=
  ⟨{ audio with fmt := ["0".toList] }, taken, by decide +kernel, by decide +kernel, by decide +kernel⟩

/-- C123 (finding): with the last ports of the range the engine panics, although the port that it would use is free. -/
theorem C123_panic_counterexample : generateAnswer (fun _ => asIs) offer { opts with basePort := 65534 } = .panic := by
  decide +kernel

/-- C123 (finding): with base port 0 a stream that is taken looks refused. -/
theorem C123_port_zero_counterexample :
    ∃ a, negotiateMedia asIs audio { opts with basePort := 0 } 0 = some a ∧ a.port = 0 :=
  ⟨{ taken with port := 0 }, by decide +kernel, rfl⟩

/-- C124 (finding): a stream that was only sent is also received after hold and resume. -/
theorem C124_resume_counterexample :
    ∃ s1 s2, holdOffer offer = .done s1 ∧ resumeOffer s1 = .done s2 ∧
      (offer.media.map (fun m => directionOf m.attributes)) = [.sendonly, .sendrecv] ∧
      (s2.media.map (fun m => directionOf m.attributes)) = [.sendrecv, .sendrecv] := by
  refine ⟨_, _, rfl, rfl, ?_, ?_⟩ <;> decide +kernel

/-- C124 (finding): a direction for the whole session is neither read nor changed: a session on
hold is not resumed. -/
theorem C124_session_direction_counterexample :
    ∃ s', resumeOffer { offer with attributes := [flag "inactive"] } = .done s' ∧ s'.attributes = [flag "inactive"] :=
  ⟨_, rfl, rfl⟩

/-- The version goes from 7 to 8. -/
example : ∃ s', holdOffer offer = .done s' ∧ s'.origin.sessVersion = "8".toList := ⟨_, rfl, by decide +kernel⟩
example : holdOffer { offer with origin := { offer.origin with sessVersion := "18446744073709551615".toList } } = .panic := by
  decide +kernel

/-- The preconditions of the stream are met on both sides. -/
example : preconditionsMet audio.attributes = true ∧ preconditionsMet taken.attributes = true := by decide +kernel
example : preconditionsMet [at_ "curr" "qos e2e none", at_ "des" "qos mandatory e2e send"] = false := by decide +kernel
example : Listed "curr" CurrText audio.attributes [⟨.qos, .e2e, .send⟩, ⟨.qos, .near, .none⟩] :=
  (currs_iff _ _ _).mpr (by decide +kernel)
example : Listed "des" DesText audio.attributes [⟨.qos, .mandatory, .e2e, .send⟩] := (deses_iff _ _).mpr (by decide +kernel)
example : Spelled (.other "sec".toList) := ⟨by decide, by decide, fun h => by
  have := (reads_iff _ _ (by decide)).mp h
  revert this
  decide⟩

/-- The hypotheses of `C125_e2e_agrees`. -/
example : ∃ a, negotiateMedia asIs { audio with attributes := [at_ "curr" "qos e2e none", at_ "des" "qos mandatory e2e sendrecv"] } opts 30000 = some a ∧
    preconditionsMet a.attributes = false :=
  ⟨{ taken with fmt := ["0".toList], attributes := [at_ "rtpmap" "0 PCMU/8000", flag "sendrecv", at_ "curr" "qos e2e none",
      at_ "des" "qos mandatory e2e sendrecv"] }, by decide +kernel, by decide +kernel⟩

/-- C125 (finding): the answer to a status of an access network says nothing about what the offer reports: the offerer's
`local sendrecv` comes back as `remote none`, unless the application says otherwise. -/
theorem C125_remote_forgotten :
    answerCurr opts ⟨.qos, .near, .both⟩ = some (at_ "curr" "qos remote none") := by decide +kernel

/-- C125 (finding): a mandatory precondition of another kind than `qos` is dropped from the answer, which then has no
precondition that is not met. -/
theorem C125_unknown_kind_dropped :
    ∃ as, preconditionsMet as = false ∧ answerPreconditions opts as = [] :=
  ⟨[at_ "des" "sec mandatory e2e sendrecv"], by decide +kernel, by decide +kernel⟩

end Siphon.Offer
