import Verif.Relay.PropsMatch
import Verif.Bridge.Cases
import Verif.Privacy.Props
set_option linter.unusedSimpArgs false
/-!
# C126 to C129: concrete cases, and what goes wrong
-/
namespace Siphon.Relay.Cases
open HdrSpec TextSpec Spec MfSpec
open Siphon.Bridge.Cases (hd)
open Siphon.Dlg (first_iff)

/-- A proxy at 10.0.0.9. -/
def cfg : Cfg := ⟨"sip:proxy@10.0.0.9".toList, fun _ => List.replicate 32 0, true, false, false, fun _ => []⟩

/-- The same with the port in its URI. -/
def cfgPort : Cfg := { cfg with localUri := "sip:proxy@10.0.0.9:5060".toList }

/-- Alice, at 10.0.0.1. -/
def alice : Ctx := ⟨.udp, (.v4 10 0 0 1, 5060), none, none⟩

/-- Someone else. -/
def mallory : Ctx := ⟨.tcp, (.v4 10 9 9 9, 4444), some 3, none⟩

def ask (m : Method) (uri : String) (more : List (String × String)) : Request :=
  ⟨m, uri.toList, hd ([("Via", "SIP/2.0/UDP 10.0.0.1;branch=z9hG4bK2"), ("From", "<sip:alice@10.0.0.1>;tag=A"),
    ("To", "<sip:bob@10.0.0.2>;tag=x2"), ("Call-ID", "in1"), ("CSeq", "8 X"), ("Max-Forwards", "7")] ++ more), []⟩

def bye : Request := ask .bye "sip:bob@10.0.0.2" [("Route", "<sip:10.0.0.9;lr>"), ("Proxy-Authorization", "x")]

/-- What becomes of it: its Route and its credential are gone. -/
def byeOut : Request :=
  ⟨.bye, "sip:bob@10.0.0.2".toList, hd [("Via", "SIP/2.0/UDP 10.0.0.9;branch=z9hG4bK00000000000000000000000000000000;rport"),
    ("Via", "SIP/2.0/UDP 10.0.0.1;branch=z9hG4bK2"), ("From", "<sip:alice@10.0.0.1>;tag=A"),
    ("To", "<sip:bob@10.0.0.2>;tag=x2"), ("Call-ID", "in1"), ("CSeq", "8 X"), ("Max-Forwards", "6")], []⟩

def nfo (now : Nat) (look : Bridge.Lookup) : Info := ⟨now, "z9hG4bKabcdefghijklmnop".toList, "tt".toList, .pass, look⟩

def nobody : Bridge.Lookup := fun _ => []

/-- Bob is registered under his address of record. -/
def bob : Bridge.Lookup := fun k => if k = "sip:bob@example.com".toList then ["sip:bob@10.0.0.2:5070".toList] else []

theorem hinv_ask (m : Method) (u : String) (more : List (String × String)) (h1 : (ask m u more).headers.inner.length ≤ 200)
    (h2 : ∀ x ∈ (ask m u more).headers.inner, (Header.new x.name x.value).toOption = some x) : HInv (ask m u more).headers :=
  Priv.hinv_of h1 h2

theorem hinv_bye : HInv bye.headers := hinv_ask _ _ _ (by decide) (by decide +kernel)

theorem host_plain : ∀ host, HostText cfg host → ';' ∉ host := by
  intro host h
  rw [(hostText_iff cfg host).mp h]
  decide

/-- `C126_forward`: a BYE through the proxy's own Route. -/
theorem bye_sent : (forward cfg plainOpts bye alice).sent = some (.udp (.v4 10 0 0 2, 5060), byeOut) := by decide +kernel

example : ∃ b hs, Admitted cfg bye alice b hs ∧ Sent cfg bye hs (.udp (.v4 10 0 0 2, 5060)) byeOut :=
  (C126_forward cfg bye alice hinv_bye _ _).mp bye_sent

/-- `C126_branch`. -/
example : ∃ hs, Admitted cfg bye alice "z9hG4bK00000000000000000000000000000000".toList hs :=
  (C126_branch cfg bye alice hinv_bye _).mp (by decide +kernel)

theorem bye_reaches (t : Nat) (l : Bridge.Lookup) : Reaches bye (nfo t l).gate :=
  ⟨(noHops_hops _).mp (by decide +kernel), .inl rfl⟩

/-- `C126_request` and `C126_ack`. -/
example : (step cfg init (.request 1 bye alice (nfo 0 nobody))).2 = [.request (.udp (.v4 10 0 0 2, 5060)) byeOut] :=
  ((C126_request cfg init 1 bye alice (nfo 0 nobody) hinv_bye (by decide) (bye_reaches _ _)).1 _ _).mpr
    ((C126_forward cfg bye alice hinv_bye _ _).mp bye_sent)

example : (step cfg init (.ack bye alice 0)).2 = [.request (.udp (.v4 10 0 0 2, 5060)) byeOut] :=
  ((C126_ack cfg init bye alice 0 hinv_bye).1 _ _).mpr ((C126_forward cfg bye alice hinv_bye _ _).mp bye_sent)

/-- When it comes again, it is a loop: it is not sent, and nobody is told (main.rs and bye.rs only log it, no 482). -/
theorem C126_loop_silent : (step cfg init (.request 1 byeOut alice (nfo 0 nobody))).2 = [] := by decide +kernel

/-- The Route behind the proxy's own is not followed: the BYE goes to its Request-URI, past the second proxy at 10.0.0.8. -/
theorem C126_route_skipped :
    ((forward cfg plainOpts (ask .bye "sip:bob@10.0.0.2" [("Route", "<sip:10.0.0.9;lr>, <sip:10.0.0.8;lr>")]) alice).sent.map Prod.fst) =
      some (.udp (.v4 10 0 0 2, 5060)) := by decide +kernel

/-- A host name is not looked up: the request is dropped, and nobody is told. -/
theorem C126_name_dropped : (step cfg init (.request 1 (ask .bye "sip:bob@example.com" []) alice (nfo 0 nobody))).2 = [] := by decide +kernel

/-- `C126_circulates`: the same proxy with a port in its URI, and a request for itself, seven times round. -/
def round : Request := ask .message "sip:bob@10.0.0.9" []

example : Circulates cfgPort alice (.udp (.v4 10 0 0 9, 5060)) 7 round := by
  obtain ⟨me, hme⟩ : ∃ me, SipUri.parse cfgPort.localUri = some me := Option.isSome_iff_exists.mp (by decide +kernel)
  obtain ⟨u, hu⟩ : ∃ u, SipUri.parse round.uri = some u := Option.isSome_iff_exists.mp (by decide +kernel)
  have hk : selectTransport u = .udp := by
    have : (SipUri.parse round.uri).map selectTransport = some .udp := by decide +kernel
    rw [hu] at this
    exact Option.some.inj this
  have hp : (Bridge.socketOf u).bind (fun a => wayTo cfgPort u a .udp) = some (.udp (.v4 10 0 0 9, 5060)) := by
    have : (SipUri.parse round.uri).map (fun u => (Bridge.socketOf u).bind (fun a => wayTo cfgPort u a .udp)) =
        some (some (.udp (.v4 10 0 0 9, 5060))) := by decide +kernel
    rw [hu] at this
    exact Option.some.inj this
  refine C126_circulates cfgPort alice me u .udp _ "10.0.0.9:5060".toList hme ((hostText_iff _ _).mpr (by decide +kernel)) (by decide)
    ((carrier_iff _ _).mpr hk) ((place_iff _ ⟨_, hu⟩ _ _).mpr (Option.bind_eq_some_iff.mp hp)) 7 round
    (hinv_ask _ _ _ (by decide) (by decide +kernel)) hu (by decide +kernel) (by decide) (by decide) ?_ ?_
  · exact ⟨round.headers.inner.take 5, ⟨"Max-Forwards".toList, "7".toList⟩, [], by decide +kernel, sameName_refl _,
      by intro y hy hm; unfold IsMf at hm; rw [← nameEq_iff] at hm; revert y; decide +kernel, (says_iff _ _).mpr (by
        have := decDigits_showNat 7
        exact this)⟩
  · unfold Fits OneLine
    decide +kernel

/-! ## Calls -/

def invite : Request := ask .invite "sip:bob@example.com" []

theorem hinv_invite : HInv invite.headers := hinv_ask _ _ _ (by decide) (by decide +kernel)

def inviteOut : Request :=
  ⟨.invite, "sip:bob@10.0.0.2:5070".toList, hd [("Via", "SIP/2.0/UDP 10.0.0.9;branch=z9hG4bKabcdefghijklmnop;rport"),
    ("Via", "SIP/2.0/UDP 10.0.0.1;branch=z9hG4bK2"), ("From", "<sip:alice@10.0.0.1>;tag=A"),
    ("To", "<sip:bob@10.0.0.2>;tag=x2"), ("Call-ID", "in1"), ("CSeq", "8 X"), ("Max-Forwards", "6"),
    ("Record-Route", "<sip:proxy@10.0.0.9;lr>")], []⟩

theorem invite_outs : (step cfg init (.request 1 invite alice (nfo 0 bob))).2.drop 1 = [.request (.udp (.v4 10 0 0 2, 5070)) inviteOut] := by
  decide +kernel

/-- `C127_invite`: the INVITE goes to Bob's contact. -/
theorem invite_in : Out.request (.udp (.v4 10 0 0 2, 5070)) inviteOut ∈ (step cfg init (.request 1 invite alice (nfo 0 bob))).2 :=
  List.mem_of_mem_drop (by rw [invite_outs]; simp)

/-- Bob has no binding: 404, with the headers of the INVITE and no tag in To (invite.rs 960-969). -/
theorem C127_not_found : (step cfg init (.request 1 invite alice (nfo 0 nobody))).2.drop 1 =
    [.final 1 ⟨404, "Not Found".toList, invite.headers, []⟩] := by decide +kernel

/-- A re-INVITE carries the callee's contact, for which nothing is stored: it is answered 404, although its Route leads through this
proxy. -/
theorem C127_reinvite_lost :
    let re := ask .invite "sip:bob@10.0.0.2:5070" [("Route", "<sip:10.0.0.9;lr>")]
    (step cfg init (.request 1 re alice (nfo 0 bob))).2.drop 1 = [.final 1 ⟨404, "Not Found".toList, re.headers, []⟩] := by decide +kernel

/-- The credential for this proxy goes to the callee. -/
theorem C127_credential_leaks :
    let inv := ask .invite "sip:bob@example.com" [("Proxy-Authorization", "secret")]
    (((step cfg init (.request 1 inv alice (nfo 0 bob))).2.drop 1).map (fun
      | .request _ q => q.headers.get "Proxy-Authorization".toList
      | _ => none)) = [some "secret".toList] := by decide +kernel

/-- A retransmitted INVITE is sent again, under the new branch: the callee sees two INVITEs. -/
theorem C127_twice :
    (step cfg (run cfg init [.request 1 invite alice (nfo 0 bob)])
      (.request 1 invite alice { nfo 1 bob with branch := "z9hG4bKbbbbbbbbbbbbbbbb".toList })).2.length = 2 := by decide +kernel

/-- A contact with a host name: 100, and then nothing. -/
theorem C127_hangs :
    (step cfg init (.request 1 invite alice (nfo 0 (fun _ => ["sip:bob@host.example".toList])))).2.drop 1 = [] := by decide +kernel

/-! ## Responses -/

def answer (code : Nat) : Response :=
  ⟨code, "X".toList, hd [("Via", "SIP/2.0/UDP 10.0.0.9;branch=z9hG4bKabcdefghijklmnop;rport"),
    ("Via", "SIP/2.0/UDP 10.0.0.1;branch=z9hG4bK2"), ("CSeq", "8 INVITE")], []⟩

def answerBack (code : Nat) : Response :=
  ⟨code, "X".toList, hd [("Via", "SIP/2.0/UDP 10.0.0.1;branch=z9hG4bK2"), ("CSeq", "8 INVITE")], []⟩

theorem stored_one : ∀ e ∈ [Ev.request 1 invite alice (nfo 0 bob)], e.Stored := by
  intro e he
  rw [List.mem_singleton] at he
  subst he
  exact hinv_invite

theorem answered : (step cfg (run cfg init [.request 1 invite alice (nfo 0 bob)]) (.response (answer 200))).2 =
    [.response (.udp (.v4 10 0 0 1, 5060)) (answerBack 200)] := by decide +kernel

/-- `C128_response`. -/
example : ∃ b x t, Answers (answer 200) b ∧ Open cfg b x t [Ev.request 1 invite alice (nfo 0 bob)].reverse ∧
    Back cfg x (.udp (.v4 10 0 0 1, 5060)) ∧ Returned (answer 200) (answerBack 200) :=
  (C128_response cfg _ stored_one (answer 200) _ _).mp answered

/-- `C128_up`: a response to nothing. -/
example : ∀ b x t, Answers (answer 200) b → ¬ Open cfg b x t ([] : List Ev).reverse :=
  ((C128_up cfg [] (by simp) (answer 200) (answer 200)).mp (by decide +kernel)).2

theorem answer_branch (n : Nat) : Answers (answer n) "z9hG4bKabcdefghijklmnop".toList :=
  (answers_iff _ _).mpr (show (((answer 0).headers.get "Via".toList).bind Manager.branchFromVia) = _ by decide +kernel)

/-- `C128_once`: a second 200, from another branch of the call or retransmitted, does not reach Alice; so her ACK cannot stop it. -/
example : (step cfg (run cfg init ([.request 1 invite alice (nfo 0 bob)] ++ .response (answer 200) :: [])) (.response (answer 200))).2 =
    [.up (answer 200)] :=
  C128_once cfg _ [] (by simpa using stored_one) _ _ _ (answer_branch 200) (by decide) (answer_branch 200) (by simp)

/-- The 100 of the callee goes back to the caller, who had one from the proxy. -/
theorem C128_trying : (step cfg (run cfg init [.request 1 invite alice (nfo 0 bob)]) (.response (answer 100))).2 =
    [.response (.udp (.v4 10 0 0 1, 5060)) (answerBack 100)] := by decide +kernel

/-- `C128_takeover`: whoever sends the same BYE from elsewhere gets the response to it. -/
theorem mallory_takes : Takes cfg "z9hG4bK00000000000000000000000000000000".toList mallory 1 (.request 2 bye mallory (nfo 1 nobody)) := by
  obtain ⟨hs, h⟩ := (C126_branch cfg bye mallory hinv_bye "z9hG4bK00000000000000000000000000000000".toList).mp (by decide +kernel)
  exact .passed rfl (bye_reaches _ _) (by decide) h

def byeAnswer : Response :=
  ⟨200, "OK".toList, hd [("Via", "SIP/2.0/UDP 10.0.0.9;branch=z9hG4bK00000000000000000000000000000000;rport"),
    ("Via", "SIP/2.0/UDP 10.0.0.1;branch=z9hG4bK2")], []⟩

example : ∃ r', Returned byeAnswer r' ∧
    (step cfg (run cfg init ([.request 1 bye alice (nfo 0 nobody)] ++ [.request 2 bye mallory (nfo 1 nobody)])) (.response byeAnswer)).2 =
      [.response (.tcp (.v4 10 9 9 9, 4444)) r'] :=
  C128_takeover cfg _ (by intro e he; rw [List.mem_singleton] at he; subst he; exact hinv_bye) (.request 2 bye mallory (nfo 1 nobody)) hinv_bye _ mallory 1 mallory_takes byeAnswer
    ((answers_iff _ _).mpr (by decide +kernel)) _ (.tcp rfl)

theorem brings_invite : Brings invite alice 0 (.request 1 invite alice (nfo 0 bob)) := .request rfl (by decide +kernel)

/-- `C128_sent`. -/
example : ∃ b v, Takes cfg b alice 0 (.request 1 invite alice (nfo 0 bob)) ∧ TopBranch inviteOut.headers b ∧
    ∀ vs, Selects "Via".toList invite.headers.inner vs → Selects "Via".toList inviteOut.headers.inner (v :: vs) :=
  C128_sent cfg host_plain init _ invite alice 0 brings_invite hinv_invite _ _ invite_in

/-- `C128_roundtrip`: Bob rings, and Alice hears of it; a clean-up in between does no harm. -/
example : ∃ r', (step cfg (run cfg init ([] ++ .request 1 invite alice (nfo 0 bob) :: [.sweep 60000000000])) (.response (answer 180))).2 =
      [.response (.udp (.v4 10 0 0 1, 5060)) r'] ∧ Returned (answer 180) r' ∧
    ∀ vs, Selects "Via".toList invite.headers.inner vs → Selects "Via".toList r'.headers.inner vs := by
  refine C128_roundtrip cfg host_plain [] [.sweep 60000000000] ?_ _ invite alice 0 brings_invite hinv_invite _ inviteOut invite_in ?_ _ ?_ _
    (.udp rfl rfl)
  · intro e he
    rw [List.nil_append, List.mem_singleton] at he
    subst he
    trivial
  · intro b _ e he
    rw [List.mem_singleton] at he
    subst he
    refine ⟨fun y s h => ?_, fun h => ?_⟩
    · cases h
    · cases h with | old h => revert h; decide
  · intro vs hvs
    rw [Dlg.selects_iff] at hvs ⊢
    rw [hvs]
    show inviteOut.headers.getAll "Via".toList = (answer 180).headers.getAll "Via".toList
    decide +kernel

/-! ## CANCEL -/

def cancel : Request := ask .cancel "sip:bob@10.0.0.2:5070" []

theorem hinv_cancel : HInv cancel.headers := hinv_ask _ _ _ (by decide) (by decide +kernel)

def cancelOut : Request :=
  ⟨.cancel, "sip:bob@10.0.0.2:5070".toList, hd [("Via", "SIP/2.0/UDP 10.0.0.9;branch=z9hG4bK00000000000000000000000000000000;rport"),
    ("Via", "SIP/2.0/UDP 10.0.0.1;branch=z9hG4bK2"), ("From", "<sip:alice@10.0.0.1>;tag=A"),
    ("To", "<sip:bob@10.0.0.2>;tag=x2"), ("Call-ID", "in1"), ("CSeq", "8 X"), ("Max-Forwards", "6")], []⟩

theorem cancel_out : (step cfg init (.request 2 cancel alice (nfo 1 bob))).2 = [.request (.udp (.v4 10 0 0 2, 5070)) cancelOut] := by
  decide +kernel

/-- `C129_unmatched`: a CANCEL, here even one for the callee's contact, is not for the INVITE. -/
example : ∀ b, TopBranch inviteOut.headers b → ¬ TopBranch cancelOut.headers b :=
  C129_unmatched cfg host_plain (fun _ => show 16 ≤ (List.replicate 32 (0 : UInt8)).length by decide) init init 1 invite alice alice (nfo 0 bob) hinv_invite rfl (by decide)
    (by decide +kernel) _ _ _ _ invite_in cancel hinv_cancel _ 1 (.request (i := nfo 1 bob) rfl (by decide +kernel)) (by decide)
    (by rw [cancel_out]; exact List.mem_singleton.mpr rfl)

/-- `C129_uri`; and the CANCEL that Alice sends, with the Request-URI of her INVITE, goes nowhere at all. -/
example : cancelOut.uri = cancel.uri ∧ cancelOut.method = cancel.method :=
  C129_uri cfg init _ cancel alice 1 (.request (txn := 2) (i := nfo 1 bob) rfl (by decide +kernel)) hinv_cancel (by decide) _ _
    (by rw [cancel_out]; exact List.mem_singleton.mpr rfl)

theorem C129_cancel_dropped : (step cfg init (.request 2 (ask .cancel "sip:bob@example.com" []) alice (nfo 1 bob))).2 = [] := by
  decide +kernel

end Siphon.Relay.Cases
