import Verif.Dialog.UacProps
import Verif.Base.Utf8
set_option linter.unusedSimpArgs false
/-!
# Requests inside a dialog: C79, bodies, and what goes wrong
-/
namespace Siphon.Dlg
open Spec TextSpec HdrSpec

theorem get_of_inner {hs : Headers} {l : List Header} (h : hs.inner = l) (n : String) (v : Str) :
    First hs n v ↔ (l.find? (·.nameEq n.toList)).map Header.value = some v := by
  rw [first_iff]
  unfold Headers.get Headers.getHeader
  rw [h]

theorem find_cons (nm v n : Str) (l : List Header) : (Header.mk nm v :: l).find? (·.nameEq n) =
    if eqIgnoreCase nm n then some ⟨nm, v⟩ else l.find? (·.nameEq n) := by
  rw [List.find?_cons]
  unfold Header.nameEq
  simp only
  cases eqIgnoreCase nm n <;> rfl

theorem decDigits_no_ws {w : Str} {n : Nat} (h : DecDigits w n) : w ≠ [] ∧ ∀ c ∈ w, isWs c = false := by
  refine ⟨?_, fun c hc => isDigit_not_ws c ((decDigits_val h).2 c hc)⟩
  cases h <;> simp

theorem decimal_no_ws {w : Str} {n : Nat} (h : Decimal w n) : w ≠ [] ∧ ∀ c ∈ w, isWs c = false := by
  rcases h with h | ⟨r, rfl, h⟩
  · exact decDigits_no_ws h
  · refine ⟨by simp, ?_⟩
    intro d hd
    rcases List.mem_cons.1 hd with rfl | hd
    · decide
    · exact (decDigits_no_ws h).2 d hd

/-! ## Bodies -/

/-- **C80.** The body is the text given, and Content-Length its size in bytes. -/
theorem C80_body (ua : Ua) (branch : Str) (d : Dialog) (k : Kind) (r : Request) (h : create ua branch d k = .done r) :
    r.method = k.method ∧ r.uri = d.remoteTarget.raw ∧
    (∀ s, k = .reinvite (some s) ∨ k = .update (some s) ∨ (∃ ct, k = .info ct s) → r.body = utf8 s) ∧
    ∃ w, First r.headers "Content-Length" w ∧ Decimal w r.body.length := by
  obtain ⟨h1, h2, h3, h4⟩ := create_inner h
  refine ⟨h1, h2, ?_, ?_⟩
  · rintro s (rfl | rfl | ⟨ct, rfl⟩) <;> rw [h3] <;> rfl
  · rw [h3]
    simp only [get_of_inner h4, List.cons_append, List.nil_append, List.map_cons]
    generalize "SIP/2.0/UDP placeholder;branch=".toList ++ branch = via
    generalize k.from ua d = frm
    generalize bareAddr d.remoteUri d.id.remoteTag = to
    generalize cseqValue d.nextLocalCSeq.1 k.method = cs
    rw [find_cons, if_neg (by decide), find_cons, if_neg (by decide), find_cons, if_neg (by decide), find_cons,
      if_neg (by decide), find_cons, if_neg (by decide)]
    have z : Decimal "0".toList 0 := decimal_showNat 0
    cases k with
    | bye =>
      simp only [Kind.tail, List.map_cons, List.map_nil]
      rw [find_cons, if_neg (by decide), find_cons, if_neg (by decide), find_cons, if_pos (by decide)]
      exact ⟨_, rfl, z⟩
    | reinvite b =>
      simp only [Kind.tail, List.cons_append, List.nil_append, List.map_cons]
      rw [find_cons, if_neg (by decide), find_cons, if_neg (by decide), find_cons, if_neg (by decide)]
      cases b with
      | none =>
        simp only [sdpHeaders, List.map_cons, List.map_nil]
        rw [find_cons, if_pos (by decide)]
        exact ⟨_, rfl, z⟩
      | some s =>
        simp only [sdpHeaders, List.map_cons, List.map_nil]
        rw [find_cons, if_neg (by decide), find_cons, if_pos (by decide)]
        exact ⟨_, rfl, by simp only [Kind.body]; rw [length_utf8]; exact decimal_showNat _⟩
    | update b =>
      simp only [Kind.tail, List.cons_append, List.nil_append, List.map_cons]
      rw [find_cons, if_neg (by decide), find_cons, if_neg (by decide), find_cons, if_neg (by decide)]
      cases b with
      | none =>
        simp only [sdpHeaders, List.map_cons, List.map_nil]
        rw [find_cons, if_pos (by decide)]
        exact ⟨_, rfl, z⟩
      | some s =>
        simp only [sdpHeaders, List.map_cons, List.map_nil]
        rw [find_cons, if_neg (by decide), find_cons, if_pos (by decide)]
        exact ⟨_, rfl, by simp only [Kind.body]; rw [length_utf8]; exact decimal_showNat _⟩
    | info ct b =>
      simp only [Kind.tail, List.map_cons, List.map_nil]
      rw [find_cons, if_neg (by decide), find_cons, if_neg (by decide), find_cons, if_neg (by decide), find_cons,
        if_pos (by decide)]
      exact ⟨_, rfl, by simp only [Kind.body]; rw [length_utf8]; exact decimal_showNat _⟩
    | prack b =>
      simp only [Kind.tail, List.map_cons, List.map_nil]
      rw [find_cons, if_neg (by decide), find_cons, if_neg (by decide), find_cons, if_neg (by decide), find_cons,
        if_neg (by decide), find_cons, if_pos (by decide)]
      exact ⟨_, rfl, z⟩
    | refer t b =>
      cases b <;>
        simp only [Kind.tail, List.cons_append, List.nil_append, List.append_nil, List.map_cons, List.map_nil, if_true,
          if_false, Bool.false_eq_true]
      · rw [find_cons, if_neg (by decide), find_cons, if_neg (by decide), find_cons, if_neg (by decide), find_cons,
          if_neg (by decide), find_cons, if_pos (by decide)]
        exact ⟨_, rfl, z⟩
      · rw [find_cons, if_neg (by decide), find_cons, if_neg (by decide), find_cons, if_neg (by decide), find_cons,
          if_neg (by decide), find_cons, if_neg (by decide), find_cons, if_pos (by decide)]
        exact ⟨_, rfl, z⟩

/-! ## C79: the ACK for a 2xx -/

theorem request_new {m : Method} {u : Str} {hs : Headers} {b : Bytes} {r : Request} (h : Request.new m u hs b = .ok r) :
    r = ⟨m, u, hs, b⟩ := by
  unfold Request.new at h
  split at h
  · cases h
  · cases h; rfl

theorem createAck_inner {ua : Ua} {branch : Str} {i : Request} {p : Response} {sdp : Option Str} {r : Request}
    (h : createAck ua branch i p sdp = .done r) :
    r.method = .ack ∧ r.uri = i.uri ∧ r.headers.inner = ([("Via", "SIP/2.0/UDP placeholder;branch=".toList ++ branch)] ++
      copyHeader i.headers "From" ++ copyHeader p.headers "To" ++ copyHeader i.headers "Call-ID" ++ ackCSeq i.headers ++
      [("Max-Forwards", "70".toList), ("User-Agent", ua.agent)] ++ sdpHeaders sdp).map
        (fun p : String × Str => ⟨p.1.toList, p.2⟩) := by
  unfold createAck at h
  revert h
  generalize "SIP/2.0/UDP placeholder;branch=".toList ++ branch = via
  intro h
  split at h
  · cases h
  · rename_i hs he
    have hi := addAll_inner _ _ _ he
    split at h
    · cases h
    · rename_i r' h'
      have hr := request_new h'
      cases h
      subst hr
      exact ⟨rfl, rfl, hi.trans (List.nil_append _)⟩

/-- **C79 (partial).** The ACK for a 2xx carries the From and Call-ID of the INVITE, the To of the response and the
CSeq number of the INVITE.  Missing: a CSeq whose number is not followed by a space (`C79_tab`). -/
theorem C79_ack_partial (ua : Ua) (branch : Str) (i : Request) (p : Response) (sdp : Option Str) (r : Request)
    (f t c w m : Str) (n : Nat) (h : createAck ua branch i p sdp = .done r) (hf : First i.headers "From" f)
    (ht : First p.headers "To" t) (hc : First i.headers "Call-ID" c) (hs : First i.headers "CSeq" (w ++ ' ' :: m))
    (hw : Decimal w n) (hn : n < 2 ^ 32) :
    r.method.asStr = "ACK".toList ∧ First r.headers "From" f ∧ First r.headers "To" t ∧ First r.headers "Call-ID" c ∧
      First r.headers "CSeq" (w ++ " ACK".toList) ∧ CSeqOf r.headers n := by
  obtain ⟨h1, h2, h3⟩ := createAck_inner h
  have hnw := decimal_no_ws hw
  have hsp : ' ' ∉ w := fun hm => by have := hnw.2 _ hm; revert this; decide
  rw [show copyHeader i.headers "From" = [("From", f)] by unfold copyHeader; rw [(first_iff _ _ _).1 hf],
    show copyHeader p.headers "To" = [("To", t)] by unfold copyHeader; rw [(first_iff _ _ _).1 ht],
    show copyHeader i.headers "Call-ID" = [("Call-ID", c)] by unfold copyHeader; rw [(first_iff _ _ _).1 hc],
    show ackCSeq i.headers = [("CSeq", w ++ " ACK".toList)] by
      unfold ackCSeq; rw [(first_iff _ _ _).1 hs]; simp only; rw [splitOnce_append _ _ _ hsp]] at h3
  generalize "SIP/2.0/UDP placeholder;branch=".toList ++ branch = via at h3
  generalize hack : w ++ " ACK".toList = ack at h3 ⊢
  simp only [List.cons_append, List.nil_append, List.map_cons] at h3
  have hcs : First r.headers "CSeq" ack := by
    rw [get_of_inner h3, find_cons, if_neg (by decide), find_cons, if_neg (by decide), find_cons, if_neg (by decide),
      find_cons, if_neg (by decide), find_cons, if_pos (by decide)]
    rfl
  refine ⟨by rw [h1]; rfl, ?_, ?_, ?_, hcs, ?_⟩
  · rw [get_of_inner h3, find_cons, if_neg (by decide), find_cons, if_pos (by decide)]; rfl
  · rw [get_of_inner h3, find_cons, if_neg (by decide), find_cons, if_neg (by decide), find_cons, if_pos (by decide)]; rfl
  · rw [get_of_inner h3, find_cons, if_neg (by decide), find_cons, if_neg (by decide), find_cons, if_neg (by decide),
      find_cons, if_pos (by decide)]
    rfl
  · subst hack
    refine ⟨_, w, ["ACK".toList], hcs, ?_, hw, hn⟩
    have := Words.cons (lead := []) (w := w) (rest := " ACK".toList) (ws := ["ACK".toList]) (by simp) hnw.1 hnw.2
      (by intro c hc; simp at hc; subst hc; decide) ((words_iff _ _).2 (by decide))
    simpa using this

/-- **C79.** The callee that accepted the INVITE and no request since accepts the ACK. -/
theorem C79_accepted (ua : Ua) (branch : Str) (i : Request) (p : Response) (sdp : Option Str) (r : Request)
    (f t c w m : Str) (n : Nat) (e e' : Dialog) (h : createAck ua branch i p sdp = .done r)
    (hf : First i.headers "From" f) (ht : First p.headers "To" t) (hc : First i.headers "Call-ID" c)
    (hs : First i.headers "CSeq" (w ++ ' ' :: m)) (hw : Decimal w n) (hi : i.method.asStr ≠ "ACK".toList)
    (ha : e.updateFromRequest i = (.ok (), e')) : ∃ e'', e'.updateFromRequest r = (.ok (), e'') ∧ e''.remoteCSeq = n := by
  obtain ⟨k, hk, k1, k2, _⟩ := (C14_accepted_iff e i hi).1 ⟨e', ha⟩
  have hnw := decimal_no_ws hw
  have hkn : k = n := by
    obtain ⟨v, w', ws, h1, h2, h3, _⟩ := hk
    have hv := first_unique h1 hs
    subst hv
    have h2' := (words_iff _ _).1 h2
    have := splitWs_word (' ' :: m) w [] hnw.2
    unfold splitWhitespace at h2'
    rw [this, splitWhitespace.go, if_pos (by decide)] at h2'
    simp only [List.append_nil, List.isEmpty_reverse, List.isEmpty_iff, if_neg hnw.1, List.reverse_reverse,
      List.cons.injEq] at h2'
    obtain ⟨rfl, _⟩ := h2'
    exact decimal_fun h3 hw
  subst hkn
  have hr := C14_accepted_recorded e i e' k hi hk ha
  obtain ⟨g1, _, _, _, _, g2⟩ := C79_ack_partial ua branch i p sdp r f t c w m k h hf ht hc hs hw (by omega)
  obtain ⟨a1, a2⟩ := C14_ack_iff e' r g1
  obtain ⟨e'', he⟩ := a1.2 ⟨by omega, by rw [hr]; exact g2⟩
  refine ⟨e'', he, ?_⟩
  rw [he] at a2
  rw [← hr]; exact a2

/-! ## C20: the RAck of a PRACK -/

/-- **C20.** The RAck built for a reliable provisional response names its RSeq and the CSeq of the INVITE. -/
theorem C20_rack (inv prov : Headers) (v : Str) (h : rackFor inv prov = some v) :
    ∃ cv rv n m ws cs rs a b, First inv "CSeq" cv ∧ Words cv (n :: m :: ws) ∧ Decimal n cs ∧ First prov "RSeq" rv ∧
      Decimal rv rs ∧ Decimal a rs ∧ Decimal b cs ∧ v = a ++ " ".toList ++ b ++ " ".toList ++ m := by
  unfold rackFor at h
  split at h
  · cases h
  · rename_i cv hc
    split at h
    · rename_i n m ws hw
      split at h
      · cases h
      · rename_i cs hcs
        split at h
        · cases h
        · rename_i rv hr
          split at h
          · cases h
          · rename_i rs hrs
            simp only [Option.some.injEq] at h
            exact ⟨cv, rv, n, m, ws, cs, rs, showNat rs, showNat cs, (first_iff _ _ _).2 hc, (words_iff _ _).2 hw,
              parseDec_some hcs, (first_iff _ _ _).2 hr, parseDec_some hrs, decimal_showNat _, decimal_showNat _, by
                rw [← h]; simp⟩
    · cases h

/-! ## What goes wrong -/

private def hdr (n v : String) : Header := { name := n.toList, value := v.toList }
private def ur (s : String) : SipUri := { raw := ("sip:" ++ s).toList, sips := false, user := none, host := s.toList, port := none, params := [], headers := [] }
private def lr (s : String) : SipUri := { raw := ("sip:" ++ s ++ ";lr").toList, sips := false, user := none, host := s.toList, port := none, params := [("lr".toList, none)], headers := [] }
private def dl (tag : Str) (routes : List SipUri) : Dialog :=
  Dialog.mk { callId := "c1".toList, localTag := "1".toList, remoteTag := tag } .confirmed (ur "b2") routes 7 3 none (ur "a") (ur "b") true none none true
private def agent (name : Option String) : Ua := { localUri := ur "a", contactUri := ur "a1", display := name.map String.toList, agent := "x".toList }
private def got (r : Run Request) (n : String) : List Str := match r with | .done r => r.headers.getAll n.toList | .panic => ["panic".toList]
private def inv (cs : String) : Request :=
  { method := .invite, uri := "sip:b".toList, headers := ⟨[hdr "From" "<sip:a>;tag=1", hdr "To" "<sip:b>", hdr "Call-ID" "c1", hdr "CSeq" cs]⟩, body := [] }
private def ok200 : Response := { code := 200, reason := [], headers := ⟨[hdr "To" "<sip:b>;tag=2"]⟩, body := [] }

/-- **C80, violated.** A display name with `;tag=` in it, which the client accepts, makes every re-INVITE, UPDATE and
PRACK name another dialog. -/
theorem C80_display_name : (match create (agent (some "Sales;tag=9;")) "z9".toList (dl "2".toList []) (.reinvite none) with
    | .done r => DialogId.fromRequest r.headers
    | .panic => .panic) = .done (some { callId := "c1".toList, localTag := "9".toList, remoteTag := "2".toList }) := by
  decide +kernel

/-- **C80, violated.** A peer's tag of more than 8181 bytes, which still fits into a To header when the address is
short, makes every later builder call panic: the tag no longer fits beside the URI the application gave. -/
theorem C80_long_tag_panics (ua : Ua) (branch : Str) (d : Dialog) (k : Kind) (h : 8192 < utf8Len (bareAddr d.remoteUri d.id.remoteTag)) :
    create ua branch d k = .panic := by
  unfold create
  rw [addAll_panic _ _ ⟨("To", bareAddr d.remoteUri d.id.remoteTag), by simp, h⟩]

private def tagged (t : Str) : Response :=
  { code := 200, reason := [], headers := ⟨[hdr "From" "<sip:a>;tag=1", ⟨"To".toList, "sip:b".toList ++ ";tag=".toList ++ t⟩, hdr "Call-ID" "c1", hdr "CSeq" "3 INVITE"]⟩, body := [] }

/-- A dialog is made from such a response. -/
theorem C80_long_tag_reached : ∃ (t : Str) (d : Dialog),
    Dialog.newUac (inv "3 INVITE") (tagged t) (ur "a") (ur "bob@example.org") = .done (some d) ∧
    (∀ h ∈ (tagged t).headers.inner, utf8Len h.value ≤ 8192) ∧ 8192 < utf8Len (bareAddr d.remoteUri d.id.remoteTag) := by
  obtain ⟨t, hsz, hx⟩ : ∃ t : Str, utf8Len t = 8180 ∧ ∀ c ∈ t, c = 'x' := by
    refine ⟨List.replicate 8180 'x', ?_, fun c hc => (List.mem_replicate.1 hc).2⟩
    generalize 8180 = n
    have : Char.utf8Size 'x' = 1 := by decide
    simp [utf8Len, this]
  have ht : TagText t := by
    refine ⟨fun h => absurd (hx _ h) (by decide), ?_⟩
    rintro a c rfl
    rw [hx c (by simp)]
    decide
  have hN : Names (tagged t).headers "c1".toList "1".toList t := by
    refine ⟨(first_iff _ _ _).2 rfl, ⟨_, (first_iff _ _ _).2 rfl, extractTag_some (by decide +kernel)⟩,
      ⟨_, (first_iff _ _ _).2 rfl, tagOf_mk (extractTag_none (by decide +kernel)) ht⟩⟩
  have hA : AsciiHeaders (tagged t).headers := by
    intro h hm c hc
    simp only [tagged, List.mem_cons, List.not_mem_nil, or_false] at hm
    rcases hm with rfl | rfl | rfl | rfl
    · revert c; decide
    · simp only [List.append_assoc, List.mem_append] at hc
      rcases hc with hc | hc | hc
      · revert c; decide
      · revert c; decide
      · rw [hx c hc]; decide
    · revert c; decide
    · revert c; decide
  cases hi : DialogId.fromResponseUac (tagged t).headers with
  | panic => exact absurd hi (fromRequest_ascii hA)
  | done o =>
    cases o with
    | none => exact absurd hN (fromRequest_none hi _ _ _)
    | some i =>
      obtain ⟨_, _, rfl⟩ := names_unique (fromRequest_some hi) hN
      have h1 : contactUri (tagged i.remoteTag).headers = none := rfl
      have h2 : buildRouteSet (tagged i.remoteTag).headers true = .ok [] := rfl
      have h3 : cseqNumber (inv "3 INVITE").headers = some 3 := by decide +kernel
      have h4 : sessionTimer (tagged i.remoteTag).headers = none := rfl
      refine ⟨i.remoteTag, Dialog.mk i .confirmed (ur "bob@example.org") [] 3 0 none (ur "a") (ur "bob@example.org") false none none true, ?_, ?_, ?_⟩
      · unfold Dialog.newUac
        rw [hi]
        simp only
        rw [show stateOf (tagged i.remoteTag).code = some .confirmed from rfl]
        simp only
        rw [h1, h2, h3, h4]
        rfl
      · intro h hm
        simp only [tagged, List.mem_cons, List.not_mem_nil, or_false] at hm
        rcases hm with rfl | rfl | rfl | rfl
        · decide
        · simp only [utf8Len_append, hsz]; decide
        · decide
        · decide
      · simp only [bareAddr, utf8Len_append, hsz]; decide

/-- **C79, violated.** With a tab after the CSeq number the ACK has no CSeq. -/
theorem C79_tab : got (createAck (agent none) "z9".toList (inv "3\tINVITE") ok200 none) "CSeq" = [] ∧
    CSeqOf (inv "3\tINVITE").headers 3 := by
  refine ⟨by decide +kernel, (cseqNumber_iff _ _).1 (by decide +kernel)⟩

/-! ## The hypotheses are met -/

-- C78: loose and strict routing
example : (match prepare (dl "2".toList [lr "p1", lr "p2"]) (inv "1 INVITE") with
    | .done (d, r, hop) => (d.localCSeq, r.uri, r.headers.getAll "Route".toList, r.headers.getAll "CSeq".toList, hop.host)
    | .panic => (0, [], [], [], [])) =
  (8, "sip:b2".toList, ["<sip:p1;lr>".toList, "<sip:p2;lr>".toList], ["8 INVITE".toList], "p1".toList) := by decide +kernel
example : (match prepare (dl "2".toList [ur "p1", lr "p2"]) (inv "1 INVITE") with
    | .done (d, r, hop) => (d.localCSeq, r.uri, r.headers.getAll "Route".toList, hop.host)
    | .panic => (0, [], [], [])) =
  (8, "sip:p1".toList, ["<sip:p2;lr>".toList, "<sip:b2>".toList], "p1".toList) := by decide +kernel
-- C79
example : (got (createAck (agent none) "z9".toList (inv "3 INVITE") ok200 none) "CSeq",
    got (createAck (agent none) "z9".toList (inv "3 INVITE") ok200 none) "To") = (["3 ACK".toList], ["<sip:b>;tag=2".toList]) := by
  decide +kernel
-- C80: the hypotheses of C80_named_partial
example : NoTag (fromText (agent (some "Al")) (dl "2".toList []) (.reinvite none)) := by
  refine extractTag_none (v := _) ?_
  decide +kernel
example : got (create (agent (some "Al")) "z9".toList (dl "2".toList []) (.info "text/plain".toList "hé".toList)) "Content-Length" =
    ["3".toList] := by decide +kernel
-- C77
example : Recorded ⟨[hdr "Record-Route" "\"P, 1\" <sip:p1;lr>, <sip:p2;lr>", hdr "Record-Route" "<sip:p3;lr>"]⟩
    [lr "p1", lr "p2", lr "p3"] := by
  refine ⟨_, _, (selects_iff _ ⟨_⟩ _).2 rfl, .cons (xs := ["sip:p1;lr".toList, "sip:p2;lr".toList])
    (.more (pre := "\"P, 1\" ".toList) (x := "sip:p1;lr".toList) (post := []) (rest := " <sip:p2;lr>".toList)
      (.quoted (a := []) (q := "P, 1".toList) (b := " ".toList) (by simp [Plain]) (by decide) (by unfold Plain; decide)) (by decide) (by simp [Plain])
      (.one (pre := " ".toList) (x := "sip:p2;lr".toList) (post := []) (.plain (by unfold Plain; decide)) (by decide) (by simp [Plain])))
    (.cons (xs := ["sip:p3;lr".toList]) (.one (pre := []) (x := "sip:p3;lr".toList) (post := []) (.plain (by simp [Plain])) (by decide) (by simp [Plain])) .nil), ?_⟩
  exact .cons ((strips_trim _ _).2 rfl) (by decide +kernel) (.cons ((strips_trim _ _).2 rfl) (by decide +kernel)
    (.cons ((strips_trim _ _).2 rfl) (by decide +kernel) .nil))
-- C20
example : rackFor ⟨[hdr "CSeq" "7 INVITE"]⟩ ⟨[hdr "RSeq" "12"]⟩ = some "12 7 INVITE".toList := by decide +kernel

end Siphon.Dlg
