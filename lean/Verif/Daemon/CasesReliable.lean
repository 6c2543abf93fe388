import Verif.Daemon.PropsReliable
import Verif.Daemon.CasesCall
set_option linter.unusedSimpArgs false
set_option linter.unusedVariables false
/-!
# C118: a reliable 180, on a concrete call
-/
namespace Siphon.Daemon
open HdrSpec TextSpec
open Siphon.Dlg.Spec
open Siphon.Uas.Spec
open Siphon.Bridge.Spec (Copies Lines Fits Ascii)
open Siphon.Dlg (Dialog DialogId Mgr Validator copyHeader dialogIdKey first_iff absent_iff)
open Spec

/-- an INVITE from a caller that takes reliable responses -/
def relIn : Request := callIn [("Supported", "timer, 100rel")] []

def relCfg : Cfg := { cfg with prack := true }

theorem relIn_fine : Fine relIn := by
  refine ⟨by show _ ≤ _; decide, Priv.hinv_of (by decide) (by decide +kernel), ?_, ?_, ?_⟩
  · unfold AsciiHeaders; decide +kernel
  · intro v hv
    have e : relIn.headers.get "To".toList = some "<sip:bob@10.0.0.2>".toList := by decide +kernel
    rw [first_iff, e] at hv
    cases hv
    decide +kernel
  · intro v hv
    have e : relIn.headers.get "CSeq".toList = some "7 INVITE".toList := by decide +kernel
    rw [first_iff, e] at hv
    cases hv
    decide +kernel

theorem relIn_invites : Invites relIn "in1".toList "A".toList 7 alice := by
  have ff : ∀ {n : String} {v : String}, relIn.headers.get n.toList = some v.toList → First relIn.headers n v.toList :=
    fun h => (first_iff _ _ _).mpr h
  refine ⟨rfl, ⟨_, ff (v := "SIP/2.0/UDP 10.0.0.1;branch=z9hG4bK1") (by decide +kernel)⟩, ff (by decide +kernel),
    ⟨_, ff (v := "<sip:alice@10.0.0.1>;tag=A") (by decide +kernel), Dlg.extractTag_some (by decide +kernel), ?_⟩,
    ⟨_, ff (v := "<sip:bob@10.0.0.2>") (by decide +kernel)⟩, ⟨(Dlg.cseqNumber_iff _ _).mp (by decide +kernel), by omega, by omega⟩,
    ⟨by unfold ShortUri alice; decide +kernel, ⟨"sip:alice@10.0.0.1:5070".toList, false, some "alice".toList, "10.0.0.1".toList, some 5070, [], []⟩,
      (Dlg.targetOf_iff _ _ _).mpr (by decide +kernel), by unfold ShortUri; decide +kernel⟩, [], (Dlg.routes_iff _ _).mpr (by decide +kernel)⟩
  exact .bracketed (a := []) (x := "sip:alice@10.0.0.1".toList) (b := ";tag=A".toList) (t := "sip:alice@10.0.0.1".toList) (by decide) (by decide)
    (by decide) ((strips_trim _ _).mpr (by decide +kernel)) (by decide +kernel)

theorem relIn_takes : Takes100rel relIn.headers :=
  ⟨_, "timer, ".toList, [], (first_iff _ _ _).mpr (by decide +kernel), rfl⟩

/-- `C118_reliable`: the call of a caller that takes reliable responses. -/
example : ∃ r m, (step relCfg (run relCfg init [.request 0 relIn (nfo "x0")]).1 (.turn 0 (nfo "x1"))).2 =
      [.provisional 0 r, .repeating 0 r (dialogIdKey ⟨"in1".toList, "x1".toList, "A".toList⟩) m] ∧ 1 ≤ m ∧
    Selects "Require".toList r.headers.inner ["100rel".toList] := by
  obtain ⟨r, d, m, h1, _, _, _, h2, _, _, h3, _⟩ := C118_reliable relCfg (run relCfg init [.request 0 relIn (nfo "x0")]).1 0 0 relIn (nfo "x1") own
    "in1".toList "A".toList 7 alice relIn_fine (good_tag "x1" (by decide)) own_good ⟨by unfold OneLine; decide, by decide⟩ (by decide +kernel)
    (.inl rfl) relIn_invites
    ⟨"<sip:bob@10.0.0.2>".toList, (first_iff _ _ _).mpr (by decide +kernel), Dlg.extractTag_none (by decide +kernel)⟩
    ⟨"<sip:alice@10.0.0.1>;tag=A".toList, (first_iff _ _ _).mpr (by decide +kernel), (Sub.target_iff _ _).2 (by decide +kernel)⟩
    (by decide +kernel) (by decide +kernel) (by
      intro k hk
      rw [show (run relCfg init [.request 0 relIn (nfo "x0")]).1.rseqs = [] by decide +kernel] at hk
      cases hk) rfl relIn_takes
  exact ⟨r, m, h1, (h3 (by decide +kernel)).1, h2⟩

/-- `C118_unreliable`: the same call with reliable responses switched off. -/
example : ∃ r, (step cfg (run cfg init [.request 0 relIn (nfo "x0")]).1 (.turn 0 (nfo "x1"))).2 = [.provisional 0 r] ∧
    Absent r.headers "RSeq" := by
  obtain ⟨r, h1, _, h2, _⟩ := C118_unreliable cfg (run cfg init [.request 0 relIn (nfo "x0")]).1 0 0 relIn (nfo "x1") own relIn_fine
    (good_tag "x1" (by decide)) (by decide +kernel) (.inl rfl) (.inl rfl)
  exact ⟨r, h1, h2⟩

end Siphon.Daemon
