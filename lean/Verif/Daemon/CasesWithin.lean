import Verif.Daemon.PropsWithin
import Verif.Daemon.PropsPrack
import Verif.Daemon.CasesCancel
set_option linter.unusedSimpArgs false
/-!
# C120: requests within a call, and what goes wrong
-/
namespace Siphon.Daemon
open HdrSpec TextSpec
open Siphon.Dlg.Spec
open Siphon.Uas.Spec
open Siphon.Bridge.Cases (hd)
open Siphon.Dlg (Dialog DialogId first_iff absent_iff)
open Spec

/-- A request by Alice in her call with Bob. -/
def inside (m : Method) (cseq : String) (more : List (String × String)) (body : Bytes) : Request :=
  ⟨m, "sip:bob@10.0.0.2".toList, hd ([("Via", "SIP/2.0/UDP 10.0.0.1;branch=z9hG4bK2"), ("From", "<sip:alice@10.0.0.1>;tag=A"),
    ("To", "<sip:bob@10.0.0.2>;tag=x2"), ("Call-ID", "in1"), ("CSeq", cseq)] ++ more), body⟩

def hers : DialogId := ⟨"in1".toList, "x2".toList, "A".toList⟩

theorem inside_fine (m : Method) (body : Bytes) : Fine (inside m "8 X" [] body) :=
  fine_of (rq := inside m "8 X" [] body) (by show (inside .bye "8 X" [] []).headers.inner.length ≤ 180; decide)
    (show HInv (inside .bye "8 X" [] []).headers from Priv.hinv_of (by decide) (by decide +kernel))
    (show ∀ h ∈ (inside .bye "8 X" [] []).headers.inner, _ from by decide +kernel)
    (by intro v hv
        change (inside .bye "8 X" [] []).headers.get "To".toList = some v at hv
        rw [show (inside .bye "8 X" [] []).headers.get "To".toList = some "<sip:bob@10.0.0.2>;tag=x2".toList by decide +kernel] at hv; cases hv; decide +kernel)
    (by intro v hv
        change (inside .bye "8 X" [] []).headers.get "CSeq".toList = some v at hv
        rw [show (inside .bye "8 X" [] []).headers.get "CSeq".toList = some "8 X".toList by decide +kernel] at hv; cases hv; decide +kernel)

theorem inside_names (m : Method) (body : Bytes) : Names (inside m "8 X" [] body).headers hers.callId hers.remoteTag hers.localTag :=
  show Names (inside .bye "8 X" [] []).headers hers.callId hers.remoteTag hers.localTag from
    ⟨(first_iff _ _ _).mpr (by decide +kernel),
      ⟨_, (first_iff _ _ _).mpr (show (inside .bye "8 X" [] []).headers.get "From".toList = some "<sip:alice@10.0.0.1>;tag=A".toList by decide +kernel),
        Dlg.extractTag_some (by decide +kernel)⟩,
      ⟨_, (first_iff _ _ _).mpr (show (inside .bye "8 X" [] []).headers.get "To".toList = some "<sip:bob@10.0.0.2>;tag=x2".toList by decide +kernel),
        Dlg.extractTag_some (by decide +kernel)⟩⟩

theorem inside_admitted (m : Method) (body : Bytes) (tag : String) : Admitted cfg (inside m "8 X" [] body) (nfo tag) :=
  ⟨rfl, no_limit (show (inside .bye "8 X" [] []).headers.get "Max-Forwards".toList = none by decide +kernel), rfl⟩

theorem called_get : ((run cfg init (callEvents [])).1.dialogs.get hers).isSome = true := by decide +kernel

/-- `C120_bye`: Alice hangs up. -/
example : ∃ r m, step cfg (run cfg init (callEvents [])).1 (.request 9 (inside .bye "8 X" [] []) (nfo "b0")) =
      ({ (run cfg init (callEvents [])).1 with dialogs := m }, [.final 9 r]) ∧ r.code = 200 ∧ m.get hers = none := by
  obtain ⟨d, hd⟩ := Option.isSome_iff_exists.mp called_get
  obtain ⟨r, m, h1, h2, _, h4, _⟩ := C120_bye cfg (callEvents []) 9 (inside .bye "8 X" [] []) (nfo "b0") hers d (inside_fine _ _) (good_tag "b0" (by decide))
    (inside_admitted _ _ _) rfl (inside_names _ _) hd
  exact ⟨r, m, h1, h2.status, h4⟩

/-- `C120_unknown`: nobody has called. -/
example : ∃ r, step cfg init (.request 9 (inside .bye "8 X" [] []) (nfo "b0")) = (init, [.final 9 r]) ∧ r.body = [] ∧ BareAnswer (inside .bye "8 X" [] []) 481 r := by
  obtain ⟨r, h1, h2, h3, _⟩ := C120_unknown cfg init 9 (inside .bye "8 X" [] []) (nfo "b0") (inside_fine _ _) (good_tag "b0" (by decide))
    (inside_admitted _ _ _) (by decide) (fun j _ => rfl)
  exact ⟨r, h1, h2, h3 rfl⟩

/-- `C120_info`. -/
example : ∃ r, step cfg (run cfg init (callEvents [])).1 (.request 9 (inside .info "8 X" [] []) (nfo "b0")) = ((run cfg init (callEvents [])).1, [.final 9 r]) ∧
    r.code = 200 := by
  obtain ⟨d, hd⟩ := Option.isSome_iff_exists.mp called_get
  obtain ⟨r, h1, h2, _⟩ := C120_info cfg (run cfg init (callEvents [])).1 9 (inside .info "8 X" [] []) (nfo "b0") hers d (inside_fine _ _)
    (good_tag "b0" (by decide)) (inside_admitted _ _ _) rfl (inside_names _ _) hd
  exact ⟨r, h1, h2.status⟩

/-- `C120_prack`: a PRACK without an RAck. -/
example : ∃ r st, step cfg (run cfg init (callEvents [])).1 (.request 9 (inside .prack "8 X" [] []) (nfo "b0")) = (st, [.final 9 r]) ∧ r.code = 400 := by
  obtain ⟨d, hd⟩ := Option.isSome_iff_exists.mp called_get
  obtain ⟨r, code, h1, h2, _, _, _, h6, _⟩ := C120_prack cfg (callEvents []) 9 (inside .prack "8 X" [] []) (nfo "b0") own hers d (inside_fine _ _)
    (good_tag "b0" (by decide)) own_good (by decide +kernel) (inside_admitted _ _ _) rfl (inside_names _ _) hd
  refine ⟨r, _, h1, h2.status.trans (h6 (.inl ((absent_iff _ _).mpr ?_)))⟩
  show (inside .bye "8 X" [] []).headers.get "RAck".toList = none
  decide +kernel

theorem called_cseq : ((run cfg init (callEvents [])).1.dialogs.get hers).map (·.remoteCSeq) = some 7 := by decide +kernel

theorem in_order {d : Dialog} (hd : (run cfg init (callEvents [])).1.dialogs.get hers = some d) (m : Method) (body : Bytes) :
    InOrder (inside m "8 X" [] body).headers d.remoteCSeq 8 := by
  have h := called_cseq
  rw [hd] at h
  simp only [Option.map_some, Option.some.injEq] at h
  rw [h]
  exact ⟨(Dlg.cseqNumber_iff _ _).mp (show Dlg.cseqNumber (inside .bye "8 X" [] []).headers = some 8 by decide +kernel), by omega, by omega, by omega⟩

/-- `C120_modifies`: a re-INVITE without a body. -/
example : ∃ r d' m timers, step cfg (run cfg init (callEvents [])).1 (.request 9 (inside .invite "8 X" [] []) (nfo "b0")) =
      ({ (run cfg init (callEvents [])).1 with dialogs := m }, timers ++ [.final 9 r]) ∧ r.code = 200 ∧ r.body = Uas.Spec.bytes (some "v=0 offer".toList) ∧
      m.get hers = some d' ∧ d'.remoteCSeq = 8 := by
  obtain ⟨d, hd⟩ := Option.isSome_iff_exists.mp called_get
  obtain ⟨r, d', m, timers, h1, h2, h3, _, h5, _, _, h8, _⟩ := C120_modifies cfg (callEvents []) 9 (inside .invite "8 X" [] []) (nfo "b0") own hers d 8
    (some "v=0 offer".toList) (inside_fine _ _) (good_tag "b0" (by decide)) own_good (by decide +kernel) (inside_admitted _ _ _) (.inl rfl) (inside_names _ _) hd
    (in_order hd _ _) (.offer rfl rfl rfl) (by intro s h; cases h; decide +kernel) (by decide +kernel)
  exact ⟨r, d', m, timers, h1, h2.status, h3, h5, h8⟩

/-- `C120_refused`: an UPDATE with an offer that cannot be answered. -/
example : ∃ r, step cfg (run cfg init (callEvents [])).1 (.request 9 (inside .update "8 X" [] [118]) (nothing "b0")) =
      ((run cfg init (callEvents [])).1, [.final 9 r]) ∧ r.code = 488 := by
  obtain ⟨d, hd⟩ := Option.isSome_iff_exists.mp called_get
  obtain ⟨r, h1, h2, _⟩ := C120_refused cfg (run cfg init (callEvents [])).1 9 (inside .update "8 X" [] [118]) (nothing "b0") hers d 8 (inside_fine _ _)
    (good_tag "b0" (by decide)) ⟨rfl, (inside_admitted .update [118] "b0").hops, rfl⟩ (.inr rfl) (inside_names _ _) hd (in_order hd _ _)
    (.inl ⟨by simp [inside], "v".toList, by decide +kernel, rfl⟩)
  exact ⟨r, h1, h2.status⟩

/-- `C120_out_of_order`: an UPDATE after the re-INVITE with the same number. -/
example : ∃ r, step cfg (run cfg init (callEvents [] ++ [.request 9 (inside .invite "8 X" [] []) (nfo "b0")])).1 (.request 10 (inside .update "8 X" [] []) (nfo "b1")) =
      ((run cfg init (callEvents [] ++ [.request 9 (inside .invite "8 X" [] []) (nfo "b0")])).1, [.final 10 r]) ∧ r.code = 400 := by
  have hs : ((run cfg init (callEvents [] ++ [.request 9 (inside .invite "8 X" [] []) (nfo "b0")])).1.dialogs.get hers).map (·.remoteCSeq) = some 8 := by
    decide +kernel
  cases hd : (run cfg init (callEvents [] ++ [.request 9 (inside .invite "8 X" [] []) (nfo "b0")])).1.dialogs.get hers with
  | none => rw [hd] at hs; cases hs
  | some d =>
    rw [hd] at hs
    simp only [Option.map_some, Option.some.injEq] at hs
    obtain ⟨r, h1, h2, _⟩ := C120_out_of_order cfg (run cfg init (callEvents [] ++ [.request 9 (inside .invite "8 X" [] []) (nfo "b0")])).1 10
      (inside .update "8 X" [] []) (nfo "b1") hers d (inside_fine _ _) (good_tag "b1" (by decide)) (inside_admitted _ _ _) (.inr rfl) (inside_names _ _) hd
      (by
        rw [hs]
        rintro n ⟨a, _, _, b⟩
        rw [← Dlg.cseqNumber_iff] at a
        change Dlg.cseqNumber (inside .bye "8 X" [] []).headers = some n at a
        rw [show Dlg.cseqNumber (inside .bye "8 X" [] []).headers = some 8 by decide +kernel] at a
        cases a
        have := b (by omega)
        omega)
    exact ⟨r, h1, h2.status⟩

/-- A call by Carol. -/
def otherCall : Request :=
  ⟨.invite, "sip:bob@10.0.0.2".toList, hd [("Via", "SIP/2.0/UDP 10.0.0.9;branch=z9hG4bK3"), ("From", "<sip:carol@10.0.0.9>;tag=C"),
    ("To", "<sip:bob@10.0.0.2>"), ("Call-ID", "in9"), ("CSeq", "1 INVITE"), ("Contact", "<sip:carol@10.0.0.9>")], []⟩

theorem otherCall_id (j : DialogId) (h : First otherCall.headers "Call-ID" j.callId) : j.callId = "in9".toList := by
  rw [first_iff, show otherCall.headers.get "Call-ID".toList = some "in9".toList by decide +kernel] at h
  exact (Option.some.inj h).symm

theorem tag_text {t : Str} (h1 : ';' ∉ t) (h2 : ∀ c ∈ t, isWs c = false) : TagText t :=
  ⟨h1, fun a c e => h2 c (by rw [e]; simp)⟩

/-- `C120_spared`: Alice's dialog while Carol calls, is answered, and cleaned up after. -/
example : (run cfg init (callEvents [] ++ [.request 5 otherCall (nfo "y0"), .turn 1 (nfo "y1"), .sweep 9, .turn 1 (nfo "y2"), .turn 1 (nfo "y3")])).1.dialogs.get hers =
    (run cfg init (callEvents [])).1.dialogs.get hers := by
  have turns : ∀ (tag : String), (∀ v', Tagged "<sip:bob@10.0.0.2>".toList tag.toList v' → ¬ TagOf v' "x2".toList) → ∀ x q k,
      Ev.request x q k ∈ callEvents [] ++ [.request 5 otherCall (nfo "y0"), .turn 1 (nfo "y1"), .sweep 9, .turn 1 (nfo "y2"), .turn 1 (nfo "y3")] →
      q.method = .invite → ¬ Opens q tag.toList hers := by
    intro tag ht x q k hq _ ho
    simp [callEvents] at hq
    rcases hq with ⟨_, rfl, _⟩ | ⟨_, rfl, _⟩
    · obtain ⟨_, _, v, v', h1, h2, h3⟩ := ho
      rw [first_iff, show (callIn [] []).headers.get "To".toList = some "<sip:bob@10.0.0.2>".toList by decide +kernel] at h1
      cases h1
      exact ht v' h2 h3
    · exact absurd (otherCall_id _ ho.1) (by decide)
  have ht : ∀ tag : String, TagText tag.toList → tag.toList ≠ "x2".toList →
      ∀ v', Tagged "<sip:bob@10.0.0.2>".toList tag.toList v' → ¬ TagOf v' "x2".toList := by
    intro tag hg hne v' h1 h2
    exact hne (Dlg.tagOf_unique (h1.new (Dlg.extractTag_none (by decide +kernel)) hg) h2)
  refine C120_spared cfg hers _ _ ?_
  intro e he
  simp only [List.mem_cons, List.not_mem_nil, or_false] at he
  rcases he with rfl | rfl | rfl | rfl | rfl
  · exact fun h => absurd (otherCall_id hers h.1) (by decide)
  · exact turns "y1" (ht _ (tag_text (by decide) (by decide)) (by decide))
  · trivial
  · exact turns "y2" (ht _ (tag_text (by decide) (by decide)) (by decide))
  · exact turns "y3" (ht _ (tag_text (by decide) (by decide)) (by decide))

/-- `C120_expired`. -/
example (j : DialogId) : (step timed (run timed init (callEvents [])).1 (.expired j)).2 = [] := (C120_expired timed _ j rfl).1

/-! ## What goes wrong -/

/-- What is known of each dialog: local tag, state, remote target, last number of the peer. -/
def seen (st : St) : List (String × Dlg.DState × String × Nat) :=
  st.dialogs.dialogs.map (fun e => (String.ofList e.1.localTag, e.2.state, String.ofList e.2.remoteTarget.raw, e.2.remoteCSeq))

/-- After a re-INVITE or UPDATE the daemon's own Contact is taken for the peer's: requests in the dialog are sent to the daemon itself. -/
theorem C120_own_target :
    seen (run cfg init (callEvents [])).1 = [("x2", .confirmed, "sip:alice@10.0.0.1:5070", 7)] ∧
      seen (run cfg init (callEvents [] ++ [.request 9 (inside .update "8 UPDATE" [("Contact", "<sip:alice@10.0.0.1:5071>")] []) (nfo "b0")])).1 =
        [("x2", .confirmed, "sip:bob@10.0.0.2", 8)] := by decide +kernel

/-- A BYE with an old number (or none) ends the call, and an INFO with an old number is answered with 200. -/
theorem C120_old_bye :
    wire (step cfg (run cfg init (callEvents [])).1 (.request 9 (inside .info "3 INFO" [] []) (nfo "b0"))).2 =
        [(9, 200, "<sip:bob@10.0.0.2>;tag=x2", none)] ∧
      wire (step cfg (run cfg init (callEvents [])).1 (.request 9 (inside .bye "3 BYE" [] []) (nfo "b0"))).2 =
        [(9, 200, "<sip:bob@10.0.0.2>;tag=x2", none)] ∧
      seen (step cfg (run cfg init (callEvents [])).1 (.request 9 (inside .bye "3 BYE" [] []) (nfo "b0"))).1 = [] := by decide +kernel

/-- An INVITE for a dialog that is not there (RFC 3261 12.2.2 asks for 481) is taken for a new call, and answered: the dialog is made anew. -/
theorem C120_reinvite_unknown :
    wire (run cfg init [.request 0 (inside .invite "8 INVITE" [("Contact", "<sip:alice@10.0.0.1:5070>")] []) (nfo "y0"), .turn 0 (nfo "y1"), .turn 0 (nfo "y2")]).2 =
        [(0, 100, "<sip:bob@10.0.0.2>;tag=x2", none), (0, 180, "<sip:bob@10.0.0.2>;tag=x2", none), (0, 200, "<sip:bob@10.0.0.2>;tag=x2", none)] ∧
      seen (run cfg init [.request 0 (inside .invite "8 INVITE" [("Contact", "<sip:alice@10.0.0.1:5070>")] []) (nfo "y0"), .turn 0 (nfo "y1"),
        .turn 0 (nfo "y2")]).1 = [("x2", .confirmed, "sip:alice@10.0.0.1:5070", 8)] := by decide +kernel

/-- A Session-Expires in a re-INVITE is ignored: neither answered nor recorded. -/
theorem C120_interval_ignored :
    wire (step timed (run timed init (callEvents [])).1 (.request 9 (inside .invite "8 INVITE" [("Session-Expires", "600"), ("Supported", "timer")] []) (nfo "b0"))).2 =
      [(9, 200, "<sip:bob@10.0.0.2>;tag=x2", none)] ∧
    (step timed (run timed init (callEvents [])).1 (.request 9 (inside .invite "8 INVITE" [("Session-Expires", "600"), ("Supported", "timer")] []) (nfo "b0"))).1.dialogs.dialogs.map
      (fun e => e.2.sessionExpires) = [some 1800] := by decide +kernel

end Siphon.Daemon
