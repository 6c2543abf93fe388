import Verif.Daemon.PropsAnswer
import Verif.Bridge.Cases
import Verif.Privacy.Props
set_option linter.unusedSimpArgs false
/-!
# C118: a call, and what goes wrong
-/
namespace Siphon.Daemon
open HdrSpec TextSpec
open Siphon.Dlg.Spec
open Siphon.Bridge.Cases (hd)
open Siphon.Dlg (Dialog DialogId first_iff absent_iff)
open Spec

/-! ## A call -/

/-- Alice calls. -/
def callIn (more : List (String × String)) (body : Bytes) : Request :=
  ⟨.invite, "sip:bob@10.0.0.2".toList, hd ([("Via", "SIP/2.0/UDP 10.0.0.1;branch=z9hG4bK1"), ("From", "<sip:alice@10.0.0.1>;tag=A"),
    ("To", "<sip:bob@10.0.0.2>"), ("Call-ID", "in1"), ("CSeq", "7 INVITE"), ("Contact", "<sip:alice@10.0.0.1:5070>")] ++ more), body⟩

def cfg : Cfg := ⟨"sip:bob@10.0.0.2".toList, true, true, false, false, false, id⟩

def timed : Cfg := { cfg with timers := true }

def own : SipUri := ⟨"sip:bob@10.0.0.2".toList, false, some "bob".toList, "10.0.0.2".toList, none, [], []⟩

def alice : SipUri := ⟨"sip:alice@10.0.0.1".toList, false, some "alice".toList, "10.0.0.1".toList, none, [], []⟩

/-- every offer is answered -/
def nfo (tag : String) : Info := ⟨0, tag.toList, 5, fun _ => .done (some "v=0 answer".toList), some "v=0 offer".toList, .pass⟩

/-- no offer is answered -/
def nothing (tag : String) : Info := { nfo tag with answer := fun _ => .done none, offer := none }

theorem callIn_fine0 : Fine (callIn [] []) := by
  refine ⟨by show _ ≤ _; decide, Priv.hinv_of (by decide) (by decide +kernel), ?_, ?_, ?_⟩
  · unfold AsciiHeaders; decide +kernel
  · intro v hv
    have e : (callIn [] []).headers.get "To".toList = some "<sip:bob@10.0.0.2>".toList := by decide +kernel
    rw [first_iff, e] at hv
    cases hv
    decide +kernel
  · intro v hv
    have e : (callIn [] []).headers.get "CSeq".toList = some "7 INVITE".toList := by decide +kernel
    rw [first_iff, e] at hv
    cases hv
    decide +kernel

theorem callIn_fine (b : Bytes) : Fine (callIn [] b) :=
  have h := callIn_fine0
  ⟨h.few, h.stored, h.ascii, h.to, h.cseq⟩

theorem own_good : GoodUri own := by unfold GoodUri OneLine ShortUri own; decide +kernel

theorem callIn_invites0 : Invites (callIn [] []) "in1".toList "A".toList 7 alice := by
  have ff : ∀ {n : String} {v : String}, (callIn [] []).headers.get n.toList = some v.toList → First (callIn [] []).headers n v.toList :=
    fun h => (first_iff _ _ _).mpr h
  refine ⟨rfl, ⟨_, ff (v := "SIP/2.0/UDP 10.0.0.1;branch=z9hG4bK1") (by decide +kernel)⟩, ff (by decide +kernel),
    ⟨_, ff (v := "<sip:alice@10.0.0.1>;tag=A") (by decide +kernel), Dlg.extractTag_some (by decide +kernel), ?_⟩,
    ⟨_, ff (v := "<sip:bob@10.0.0.2>") (by decide +kernel)⟩, ⟨(Dlg.cseqNumber_iff _ _).mp (by decide +kernel), by omega, by omega⟩,
    ⟨by unfold ShortUri alice; decide +kernel, ⟨"sip:alice@10.0.0.1:5070".toList, false, some "alice".toList, "10.0.0.1".toList, some 5070, [], []⟩,
      (Dlg.targetOf_iff _ _ _).mpr (by decide +kernel), by unfold ShortUri; decide +kernel⟩, [], (Dlg.routes_iff _ _).mpr (by decide +kernel)⟩
  exact .bracketed (a := []) (x := "sip:alice@10.0.0.1".toList) (b := ";tag=A".toList) (t := "sip:alice@10.0.0.1".toList) (by decide) (by decide)
    (by decide) ((strips_trim _ _).mpr (by decide +kernel)) (by decide +kernel)

theorem callIn_invites (b : Bytes) : Invites (callIn [] b) "in1".toList "A".toList 7 alice :=
  have h := callIn_invites0
  ⟨rfl, h.via, h.callId, h.caller, h.to, h.cseq, h.short, h.routes⟩

theorem good_tag (s : String) (h : s.toList.length ≤ 128 ∧ ∀ c ∈ s.toList, c.isAlphanum = true) : GoodTag s.toList := h

/-- `C118_call`: the whole call, after any history that leaves room for the dialog. -/
example (es : List Ev) (hroom : (run cfg init (es ++ .request 4 (callIn [] []) (nfo "x0") :: [.sweep 5] ++
      .turn (run cfg init es).1.next (nfo "x1") :: [.sweep 6])).1.dialogs.dialogs.length < 9999) :
    ∃ r₀ r₁ more r₂ timers d,
      (step cfg (run cfg init es).1 (.request 4 (callIn [] []) (nfo "x0"))).2 = [.provisional 4 r₀] ∧ Answers (callIn [] []) 100 "x0".toList r₀ ∧
      (step cfg (run cfg init (es ++ .request 4 (callIn [] []) (nfo "x0") :: [.sweep 5])).1 (.turn (run cfg init es).1.next (nfo "x1"))).2 =
        .provisional 4 r₁ :: more ∧ Answers (callIn [] []) 180 "x1".toList r₁ ∧
      (step cfg (run cfg init (es ++ .request 4 (callIn [] []) (nfo "x0") :: [.sweep 5] ++ .turn (run cfg init es).1.next (nfo "x1") :: [.sweep 6])).1
        (.turn (run cfg init es).1.next (nfo "x2"))).2 = timers ++ [.final 4 r₂] ∧
      Answers (callIn [] []) 200 "x2".toList r₂ ∧ r₂.body = Uas.Spec.bytes (some "v=0 offer".toList) ∧
      (run cfg init (es ++ .request 4 (callIn [] []) (nfo "x0") :: [.sweep 5] ++ .turn (run cfg init es).1.next (nfo "x1") :: [.sweep 6] ++
        [.turn (run cfg init es).1.next (nfo "x2")])).1.dialogs.get ⟨"in1".toList, "x2".toList, "A".toList⟩ = some d ∧
      d.state = .confirmed ∧ d.remoteCSeq = 7 :=
  C118_call cfg es [.sweep 5] [.sweep 6] 4 (callIn [] []) (nfo "x0") (nfo "x1") (nfo "x2") own "in1".toList "A".toList 7 _ alice
    (some "v=0 offer".toList) (callIn_fine _) (good_tag "x0" (by decide)) (good_tag "x1" (by decide)) (good_tag "x2" (by decide)) own_good
    (by decide +kernel) rfl rfl
    (by intro v hv; rw [first_iff] at hv; rw [show (callIn [] []).headers.get "Max-Forwards".toList = none by decide +kernel] at hv; cases hv) rfl
    ((absent_iff _ _).mpr (by decide +kernel)) (callIn_invites _)
    ⟨_, (first_iff _ _ _).mpr (show (callIn [] []).headers.get "To".toList = some "<sip:bob@10.0.0.2>".toList by decide +kernel),
      Dlg.extractTag_none (by decide +kernel)⟩ (.inl rfl) (.offer rfl rfl) (by intro s h; cases h; decide +kernel) rfl
    (by intro e he i; simp at he; rcases he with rfl | rfl <;> simp) hroom

/-- such a history: none at all -/
example : (run cfg init ([] ++ .request 4 (callIn [] []) (nfo "x0") :: [.sweep 5] ++ .turn (run cfg init []).1.next (nfo "x1") :: [.sweep 6])).1.dialogs.dialogs.length
    < 9999 := by decide +kernel

/-- What was sent: codes, the To and the Session-Expires. -/
def wire (os : List Out) : List (Nat × Nat × String × Option String) := os.filterMap (fun o =>
  match o with
  | .provisional t r | .final t r => some (t, r.code, (match r.headers.get "To".toList with | some v => String.ofList v | none => ""),
      (r.headers.get "Session-Expires".toList).map String.ofList)
  | _ => none)

/-- The dialogs: local tag, state, remote target. -/
def stored (st : St) : List (String × Dlg.DState × String) :=
  st.dialogs.dialogs.map (fun e => (String.ofList e.1.localTag, e.2.state, String.ofList e.2.remoteTarget.raw))

/-- A call by itself. -/
def callEvents (more : List (String × String)) : List Ev :=
  [.request 0 (callIn more []) (nfo "x0"), .turn 0 (nfo "x1"), .turn 0 (nfo "x2"), .turn 0 (nfo "x3")]

example : wire (run cfg init (callEvents [])).2 =
      [(0, 100, "<sip:bob@10.0.0.2>", none), (0, 180, "<sip:bob@10.0.0.2>;tag=x1", none), (0, 200, "<sip:bob@10.0.0.2>;tag=x2", none)] ∧
    stored (run cfg init (callEvents [])).1 = [("x2", .confirmed, "sip:alice@10.0.0.1:5070")] := by decide +kernel

/-- `C118_rings` and `C118_no_offer`: an offer that cannot be answered, and none that can be made. -/
example : wire (run cfg init [.request 0 (callIn [] [118]) (nfo "x0"), .turn 0 (nothing "x1"), .turn 0 (nothing "x2")]).2 =
      [(0, 100, "<sip:bob@10.0.0.2>", none), (0, 488, "<sip:bob@10.0.0.2>", none)] ∧
    wire (run cfg init [.request 0 (callIn [] []) (nfo "x0"), .turn 0 (nfo "x1"), .turn 0 (nothing "x2")]).2 =
      [(0, 100, "<sip:bob@10.0.0.2>", none), (0, 180, "<sip:bob@10.0.0.2>;tag=x1", none), (0, 488, "<sip:bob@10.0.0.2>", none)] := by decide +kernel

example : ∃ r, (step cfg (run cfg init [.request 0 (callIn [] [118]) (nfo "x0")]).1 (.turn 0 (nothing "x1"))).2 = [.final 0 r] ∧
    BareAnswer (callIn [] [118]) 488 r :=
  (C118_rings cfg _ 0 0 (callIn [] [118]) (nothing "x1") own (callIn_fine _) (good_tag "x1" (by decide)) (by decide +kernel)).1
    ⟨by simp [callIn], "v".toList, by decide +kernel, rfl⟩

/-- `C118_greeted`: not taking calls. -/
example (es : List Ev) : ∃ r, step { cfg with autoAccept := false } (run { cfg with autoAccept := false } init es).1 (.request 4 (callIn [] []) (nfo "x0")) =
    ((run { cfg with autoAccept := false } init es).1, [.final 4 r]) ∧ Answers (callIn [] []) 486 "x0".toList r ∧ r.body = [] :=
  (C118_greeted { cfg with autoAccept := false } _ 4 (callIn [] []) (nfo "x0") own (callIn_fine _) (good_tag "x0" (by decide)) rfl rfl
    (by intro v hv; rw [first_iff] at hv; rw [show (callIn [] []).headers.get "Max-Forwards".toList = none by decide +kernel] at hv; cases hv) rfl
    (by
      rintro j ⟨_, _, w, hw, hwt⟩
      rw [first_iff] at hw
      rw [show (callIn [] []).headers.get "To".toList = some "<sip:bob@10.0.0.2>".toList by decide +kernel] at hw
      cases hw
      exact absurd hwt (Dlg.noTag_not (Dlg.extractTag_none (by decide +kernel))))
    ((absent_iff _ _).mpr (by decide +kernel)) (by decide +kernel)).1 rfl

/-- `C118_declines`: an INVITE without a CSeq. -/
def noCSeq : Request :=
  ⟨.invite, "sip:bob@10.0.0.2".toList, hd [("Via", "SIP/2.0/UDP 10.0.0.1;branch=z9hG4bK1"), ("From", "<sip:alice@10.0.0.1>;tag=A"),
    ("To", "<sip:bob@10.0.0.2>"), ("Call-ID", "in1")], []⟩

theorem noCSeq_not : ∀ cid ft num u, ¬ Invites noCSeq cid ft num u := by
  intro cid ft num u h
  have := (Dlg.cseqNumber_iff _ _).mpr h.cseq.1
  rw [show Dlg.cseqNumber noCSeq.headers = none by decide +kernel] at this
  cases this

theorem noCSeq_fine : Fine noCSeq := by
  refine ⟨by decide, Priv.hinv_of (by decide) (by decide +kernel), by unfold AsciiHeaders; decide +kernel, ?_, ?_⟩
  · intro v hv
    rw [first_iff, show noCSeq.headers.get "To".toList = some "<sip:bob@10.0.0.2>".toList by decide +kernel] at hv
    cases hv
    decide +kernel
  · intro v hv
    rw [first_iff, show noCSeq.headers.get "CSeq".toList = none by decide +kernel] at hv
    cases hv

example : ∃ r, (step cfg (run cfg init [.request 0 noCSeq (nfo "x0"), .turn 0 (nfo "x1")]).1 (.turn 0 (nfo "x2"))).2 = [.final 0 r] ∧
    Answers noCSeq 603 "x2".toList r := by
  obtain ⟨r, h1, h2, _⟩ := C118_declines cfg (run cfg init [.request 0 noCSeq (nfo "x0"), .turn 0 (nfo "x1")]).1 0 0 noCSeq (nfo "x2") own none
    (some "v=0 offer".toList) noCSeq_fine (good_tag "x2" (by decide)) own_good (by decide +kernel) rfl (.inl noCSeq_not) (.offer rfl rfl)
  exact ⟨r, h1, h2⟩

example : wire (run cfg init [.request 0 noCSeq (nfo "x0"), .turn 0 (nfo "x1"), .turn 0 (nfo "x2")]).2 =
      [(0, 100, "<sip:bob@10.0.0.2>", none), (0, 180, "<sip:bob@10.0.0.2>;tag=x1", none), (0, 603, "<sip:bob@10.0.0.2>;tag=x2", none)] := by
  decide +kernel

/-! ## What goes wrong -/

/-- C118 fails in full: the 180 and the 200 have different tags, so that they are about two dialogs (RFC 3261 12.1.1). -/
theorem C118_two_tags : wire (run cfg init (callEvents [])).2 =
    [(0, 100, "<sip:bob@10.0.0.2>", none), (0, 180, "<sip:bob@10.0.0.2>;tag=x1", none), (0, 200, "<sip:bob@10.0.0.2>;tag=x2", none)] := by
  decide +kernel

/-- C118 fails in full: with session timers on, the remote target of the dialog is the daemon's own Contact, as the daemon takes in its
own 200 OK like a response from the peer.  Compare `stored (run cfg …)` above. -/
theorem C118_own_target : stored (run timed init (callEvents [])).1 = [("x2", .confirmed, "sip:bob@10.0.0.2")] := by decide +kernel

/-- C118 fails in full: a Session-Expires below the minimum is not answered with 422 but taken for none. -/
theorem C118_no_422 : wire (run timed init (callEvents [("Session-Expires", "60")])).2 =
    [(0, 100, "<sip:bob@10.0.0.2>", none), (0, 180, "<sip:bob@10.0.0.2>;tag=x1", none),
      (0, 200, "<sip:bob@10.0.0.2>;tag=x2", some "1800")] := by decide +kernel

/-- C118 fails in full: the interval that the caller asked for is not granted; the daemon writes 1800. -/
theorem C118_longer : wire (run timed init (callEvents [("Session-Expires", "600")])).2 =
    [(0, 100, "<sip:bob@10.0.0.2>", none), (0, 180, "<sip:bob@10.0.0.2>;tag=x1", none),
      (0, 200, "<sip:bob@10.0.0.2>;tag=x2", some "1800")] := by decide +kernel

/-- C118 fails in full: with a reliable 180 the early dialog stays for ever, beside the confirmed one. -/
theorem C118_early_left : stored (run { cfg with prack := true } init (callEvents [("Supported", "100rel")])).1 =
    [("x2", .confirmed, "sip:alice@10.0.0.1:5070"), ("x1", .early, "sip:alice@10.0.0.1:5070")] := by decide +kernel

/-- C118 fails in full: a retransmission of the INVITE (in the same transaction) is taken for a second call, which is answered once
more and leaves a second dialog. -/
theorem C118_retransmission : wire (run cfg init (callEvents [] ++ [.request 0 (callIn [] []) (nfo "y0"), .turn 1 (nfo "y1"), .turn 1 (nfo "y2")])).2 =
      [(0, 100, "<sip:bob@10.0.0.2>", none), (0, 180, "<sip:bob@10.0.0.2>;tag=x1", none), (0, 200, "<sip:bob@10.0.0.2>;tag=x2", none),
       (0, 100, "<sip:bob@10.0.0.2>", none), (0, 180, "<sip:bob@10.0.0.2>;tag=y1", none), (0, 200, "<sip:bob@10.0.0.2>;tag=y2", none)] ∧
    stored (run cfg init (callEvents [] ++ [.request 0 (callIn [] []) (nfo "y0"), .turn 1 (nfo "y1"), .turn 1 (nfo "y2")])).1 =
      [("y2", .confirmed, "sip:alice@10.0.0.1:5070"), ("x2", .confirmed, "sip:alice@10.0.0.1:5070")] := by decide +kernel

end Siphon.Daemon
