import Verif.Daemon.PropsOnly
import Verif.Daemon.CasesCall
set_option linter.unusedSimpArgs false
/-!
# C119: a call that is cancelled, and what goes wrong
-/
namespace Siphon.Daemon
open HdrSpec TextSpec
open Siphon.Dlg.Spec
open Siphon.Bridge.Cases (hd)
open Siphon.Dlg (Dialog DialogId first_iff absent_iff)
open Spec

/-- Alice gives up. -/
def cancelIn : Request :=
  ⟨.cancel, "sip:bob@10.0.0.2".toList, hd [("Via", "SIP/2.0/UDP 10.0.0.1;branch=z9hG4bK1"), ("From", "<sip:alice@10.0.0.1>;tag=A"),
    ("To", "<sip:bob@10.0.0.2>"), ("Call-ID", "in1"), ("CSeq", "7 CANCEL")], []⟩

theorem fine_of {rq : Request} (h1 : rq.headers.inner.length ≤ 180) (h2 : HInv rq.headers) (h3 : ∀ h ∈ rq.headers.inner, ∀ c ∈ h.value, c.toNat < 128)
    (h4 : ∀ v, rq.headers.get "To".toList = some v → utf8Len v ≤ 7900) (h5 : ∀ v, rq.headers.get "CSeq".toList = some v → utf8Len v ≤ 8000) : Fine rq :=
  ⟨h1, h2, h3, fun v hv => h4 v ((first_iff _ _ _).mp hv), fun v hv => h5 v ((first_iff _ _ _).mp hv)⟩

theorem cancelIn_fine : Fine cancelIn :=
  fine_of (by decide) (Priv.hinv_of (by decide) (by decide +kernel)) (by decide +kernel)
    (by intro v hv; rw [show cancelIn.headers.get "To".toList = some "<sip:bob@10.0.0.2>".toList by decide +kernel] at hv; cases hv; decide +kernel)
    (by intro v hv; rw [show cancelIn.headers.get "CSeq".toList = some "7 CANCEL".toList by decide +kernel] at hv; cases hv; decide +kernel)

theorem call_of {hs : Headers} {cid sq num f ft : Str} {ws : List Str} (h1 : hs.get "Call-ID".toList = some cid) (h2 : hs.get "CSeq".toList = some sq)
    (h3 : splitWhitespace sq = num :: ws) (h4 : hs.get "From".toList = some f) (h5 : fromTag f = some ft) : Call hs cid num ft :=
  ⟨(first_iff _ _ _).mpr h1, ⟨sq, ws, (first_iff _ _ _).mpr h2, (words_iff _ _).mpr h3⟩, f, (first_iff _ _ _).mpr h4, (fromTag_iff _ _).mp h5⟩

theorem callIn_call : Call (callIn [] []).headers "in1".toList "7".toList "A".toList :=
  call_of (ws := ["INVITE".toList]) (sq := "7 INVITE".toList) (f := "<sip:alice@10.0.0.1>;tag=A".toList) (by decide +kernel) (by decide +kernel) (by decide +kernel)
    (by decide +kernel) (by decide +kernel)

theorem cancelIn_call : Call cancelIn.headers "in1".toList "7".toList "A".toList :=
  call_of (ws := ["CANCEL".toList]) (sq := "7 CANCEL".toList) (f := "<sip:alice@10.0.0.1>;tag=A".toList) (by decide +kernel) (by decide +kernel) (by decide +kernel)
    (by decide +kernel) (by decide +kernel)

theorem no_limit {rq : Request} (h : rq.headers.get "Max-Forwards".toList = none) : Hops rq.headers := by
  intro v hv
  rw [first_iff, h] at hv
  cases hv

/-- `C119_terminates`, with clean-ups in between and after any history without this call. -/
example (es : List Ev) (hes : ∀ e ∈ es, Elsewhere "in1".toList "7".toList "A".toList e) :
    let n := (run cfg init es).1.next
    let h := es ++ .request 4 (callIn [] []) (nfo "x0") :: [.sweep 5] ++ .turn n (nfo "x1") :: [.sweep 7]
    ∃ r₃, (step cfg (run cfg init (h ++ .request 9 cancelIn (nfo "c0") :: [.sweep 8])).1 (.turn (run cfg init h).1.next (nfo "c1"))).2 = [.final 4 r₃] ∧
      r₃.code = 487 := by
  obtain ⟨_, _, _, r₃, _, _, _, _, h5, h6, _⟩ := C119_terminates cfg es [.sweep 5] [.sweep 7] [.sweep 8] 4 9 (callIn [] []) cancelIn (nfo "x0") (nfo "x1")
    (nfo "c0") (nfo "c1") own "in1".toList "7".toList "A".toList _ _ (callIn_fine _) cancelIn_fine (good_tag "x0" (by decide)) (good_tag "x1" (by decide))
    (good_tag "c0" (by decide)) (by decide +kernel) rfl rfl rfl rfl (no_limit (by decide +kernel)) (no_limit (by decide +kernel)) rfl
    ((absent_iff _ _).mpr (by decide +kernel)) (callIn_invites _).via
    ⟨_, (first_iff _ _ _).mpr (show (callIn [] []).headers.get "To".toList = some "<sip:bob@10.0.0.2>".toList by decide +kernel),
      Dlg.extractTag_none (by decide +kernel)⟩ callIn_call cancelIn_call (.inl rfl) rfl rfl
    (by
      intro e he
      simp only [List.mem_append, List.mem_singleton] at he
      rcases he with ((he | rfl) | rfl) | rfl
      · exact hes e he
      · trivial
      · trivial
      · trivial)
    (by intro e he i; simp at he; rcases he with rfl | rfl | rfl <;> simp)
    (by intro e he i; simp at he; subst he; simp)
    (by
      intro now h
      simp at h
      have : (nfo "x1").now = 0 := rfl
      rcases h with rfl | rfl <;> rw [this] <;> decide)
  exact ⟨r₃, h5, h6⟩

/-- A call that is cancelled while it rings. -/
def cancelled : List Ev :=
  [.request 0 (callIn [] []) (nfo "x0"), .turn 0 (nfo "x1"), .request 1 cancelIn (nfo "c0"), .turn 1 (nfo "c1"), .turn 1 (nfo "c2")]

example : wire (run cfg init cancelled).2 =
      [(0, 100, "<sip:bob@10.0.0.2>", none), (0, 180, "<sip:bob@10.0.0.2>;tag=x1", none), (1, 200, "<sip:bob@10.0.0.2>;tag=c0", none),
       (0, 487, "<sip:bob@10.0.0.2>;tag=x1", none)] ∧ (run cfg init cancelled).1.waits = [] := by decide +kernel

/-- `C119_only`: there is such a run. -/
example : ∃ r, .final 0 r ∈ (run cfg init cancelled).2 ∧ r.code = 487 ∧ ∀ x q i r, Ev.request x q i ∈ cancelled → i.gate = .refused r → r.code ≠ 487 := by
  have : ∃ o ∈ (run cfg init cancelled).2, (match o with | .final t r => t == 0 && r.code == 487 | _ => false) = true := by decide +kernel
  obtain ⟨o, h1, h2⟩ := this
  cases o with
  | final t r =>
    simp at h2
    refine ⟨r, by rw [← h2.1]; exact h1, h2.2, ?_⟩
    intro x q i r h hg
    simp [cancelled] at h
    rcases h with ⟨_, _, rfl⟩ | ⟨_, _, rfl⟩ <;> cases hg
  | provisional _ _ => cases h2
  | start _ _ _ => cases h2
  | refresh _ _ _ => cases h2
  | repeating _ _ _ _ => cases h2

/-! ## What goes wrong -/

/-- C119 fails in full: a CANCEL that is handled between the 100 and the next turn of the INVITE is answered with 200 and then lost; the call
is answered. -/
theorem C119_too_early : wire (run cfg init [.request 0 (callIn [] []) (nfo "x0"), .request 1 cancelIn (nfo "c0"), .turn 1 (nfo "c1"), .turn 0 (nfo "x1"),
      .turn 0 (nfo "x2")]).2 =
    [(0, 100, "<sip:bob@10.0.0.2>", none), (1, 200, "<sip:bob@10.0.0.2>;tag=c0", none), (0, 180, "<sip:bob@10.0.0.2>;tag=x1", none),
     (0, 200, "<sip:bob@10.0.0.2>;tag=x2", none)] := by decide +kernel

/-- C119 fails in full: the handler of the INVITE is not told.  After the 487 it hands a 200 to the same transaction and stores a confirmed
dialog for the cancelled call. -/
theorem C119_answered_anyway : wire (run cfg init (cancelled ++ [.turn 0 (nfo "x2")])).2 =
      [(0, 100, "<sip:bob@10.0.0.2>", none), (0, 180, "<sip:bob@10.0.0.2>;tag=x1", none), (1, 200, "<sip:bob@10.0.0.2>;tag=c0", none),
       (0, 487, "<sip:bob@10.0.0.2>;tag=x1", none), (0, 200, "<sip:bob@10.0.0.2>;tag=x2", none)] ∧
    stored (run cfg init (cancelled ++ [.turn 0 (nfo "x2")])).1 = [("x2", .confirmed, "sip:alice@10.0.0.1:5070")] := by decide +kernel

/-- the handler of the INVITE is on after the 487: this is so for every call (`C118_waits`, `C118_answers`) -/
example (es mid : List Ev) (n txn : Nat) (rq : Request) (me : SipUri) (key : Option Str)
    (h : (run cfg init es).1.tasks.get n = some (.ringing txn rq me key)) (hn : ∀ e ∈ mid, ∀ i, e ≠ .turn n i) :
    (run cfg init (es ++ mid)).1.tasks.get n = some (.ringing txn rq me key) := C118_waits cfg es mid n _ h hn

/-- Two calls of different callers. -/
def colonCall : Request :=
  ⟨.invite, "sip:bob@10.0.0.2".toList, hd [("Via", "SIP/2.0/UDP 10.0.0.1;branch=z9hG4bK1"), ("From", "<sip:alice@10.0.0.1>;tag=z"),
    ("To", "<sip:bob@10.0.0.2>"), ("Call-ID", "x:1:y"), ("CSeq", "2 INVITE"), ("Contact", "<sip:alice@10.0.0.1:5070>")], []⟩

def colonCancel : Request :=
  ⟨.cancel, "sip:bob@10.0.0.2".toList, hd [("Via", "SIP/2.0/UDP 10.0.0.9;branch=z9hG4bK9"), ("From", "<sip:eve@10.0.0.9>;tag=y:2:z"),
    ("To", "<sip:bob@10.0.0.2>"), ("Call-ID", "x"), ("CSeq", "1 CANCEL")], []⟩

/-- C119 fails in full: Call-ID, CSeq number and tag are joined by colons, and what is cancelled is found by the joined text, from whomever
and over whatever path the CANCEL comes (RFC 3261 9.2 asks for the branch); a CANCEL with another Call-ID, another CSeq and another tag ends
this call. -/
theorem C119_collision : wire (run cfg init [.request 0 colonCall (nfo "x0"), .turn 0 (nfo "x1"), .request 1 colonCancel (nfo "c0"), .turn 1 (nfo "c1")]).2 =
    [(0, 100, "<sip:bob@10.0.0.2>", none), (0, 180, "<sip:bob@10.0.0.2>;tag=x1", none), (1, 200, "<sip:bob@10.0.0.2>;tag=c0", none),
     (0, 487, "<sip:bob@10.0.0.2>;tag=x1", none)] := by decide +kernel

end Siphon.Daemon
