import Verif.Sub.Props
set_option linter.unusedSimpArgs false
namespace Siphon.Sub
open Spec TextSpec HdrSpec Dlg.Spec
open Siphon.Dlg (headerTag contactUri cseqNumber addAll angle bareAddr cseqValue Ua first_iff absent_iff headerTag_some
  headerTag_none headerTag_ascii cseqNumber_iff contactOf_iff addAll_inner selects_iff tagOf_mk bareAddr_eq tagOf_unique)

/-! ## NOTIFY requests -/

theorem next_some {s s' : Sub} {n : Nat} (h : s.nextLocalCSeq = .done (n, s')) :
    s.localCSeq + 1 < 2 ^ 32 ∧ n = s.localCSeq + 1 ∧ s' = { s with localCSeq := s.localCSeq + 1 } := by
  unfold Sub.nextLocalCSeq at h
  split at h
  · rename_i hl
    cases h
    exact ⟨by omega, rfl, rfl⟩
  · cases h

theorem request_new {m : Method} {u : Str} {hs : Headers} {b : Bytes} {r : Request} (h : Request.new m u hs b = .ok r) :
    r = ⟨m, u, hs, b⟩ := by
  unfold Request.new at h
  split at h
  · cases h
  · cases h
    rfl

/-- the headers of a NOTIFY of the client, before those for the body -/
def notifyHead (ua : Ua) (branch : Str) (s : Sub) (st : SState) : List (String × Str) :=
  [("Via", "SIP/2.0/UDP placeholder;branch=".toList ++ branch), ("From", bareAddr ua.localUri s.id.toTag),
    ("To", bareAddr s.remoteUri s.id.fromTag), ("Call-ID", s.id.callId), ("CSeq", cseqValue (s.localCSeq + 1) .notify),
    ("Contact", angle ua.contactUri), ("Event", s.id.event), ("Subscription-State", st.asStr),
    ("Max-Forwards", "70".toList), ("User-Agent", ua.agent)]

/-- the text of a NOTIFY, nothing if there is none -/
def bodyText : Option Str → Str
  | some b => b
  | none => []

theorem notify_inner {ua : Ua} {branch : Str} {s : Sub} {st : SState} {body : Option Str} {r : Request}
    (h : createNotify ua branch s st body = .done r) :
    s.localCSeq + 1 < 2 ^ 32 ∧ r.method = .notify ∧ r.uri = s.contact.raw ∧ r.body = utf8 (bodyText body) ∧
    r.headers.inner = (notifyHead ua branch s st ++ notifyBody body).map (fun p : String × Str => ⟨p.1.toList, p.2⟩) := by
  unfold createNotify at h
  simp only [Run.bind_eq_done] at h
  obtain ⟨⟨n, s'⟩, h1, hs, h2, h3⟩ := h
  obtain ⟨hl, rfl, rfl⟩ := next_some h1
  have hi := addAll_inner _ _ _ h2
  split at h3
  · cases h3
  · rename_i r' hr
    cases h3
    rw [request_new hr]
    refine ⟨hl, rfl, rfl, ?_, by simpa [Headers.empty, notifyHead] using hi⟩
    cases body <;> rfl

/-- the headers of a NOTIFY of the server -/
def fragHead (l contact : SipUri) (branch : Str) (s : Sub) (code : Nat) (reason : Str) : List (String × Str) :=
  [("Via", viaOf contact branch), ("From", bareAddr l s.id.toTag),
    ("To", bareAddr s.remoteUri s.id.fromTag), ("Call-ID", s.id.callId), ("CSeq", cseqValue (s.localCSeq + 1) .notify),
    ("Contact", angle contact), ("Event", s.id.event), ("Subscription-State", stateFor code),
    ("Content-Type", "message/sipfrag;version=2.0".toList), ("Content-Length", showNat (utf8Len (sipfrag code reason))),
    ("Max-Forwards", "70".toList)]

theorem sipfrag_inner {l contact : SipUri} {branch : Str} {s s' : Sub} {code : Nat} {reason : Str} {r : Request}
    (h : createNotifySipfrag l contact branch s code reason = .done (some (r, s'))) :
    Uas.validReason reason = true ∧ s.localCSeq + 1 < 2 ^ 32 ∧ s' = { s with localCSeq := s.localCSeq + 1 } ∧ r.method = .notify ∧
    r.uri = s.contact.raw ∧ r.body = utf8 (sipfrag code reason) ∧
    r.headers.inner = (fragHead l contact branch s code reason).map (fun p : String × Str => ⟨p.1.toList, p.2⟩) := by
  unfold createNotifySipfrag at h
  split at h
  · cases h
  · rename_i hv
    simp only [Run.bind_eq_done] at h
    obtain ⟨⟨n, s1⟩, h1, hs, h2, h3⟩ := h
    obtain ⟨hl, rfl, rfl⟩ := next_some h1
    have hi := addAll_inner _ _ _ h2
    split at h3
    · cases h3
    · rename_i r' hr
      cases h3
      rw [request_new hr]
      exact ⟨by simpa using hv, hl, rfl, rfl, rfl, rfl, by simpa [Headers.empty, fragHead] using hi⟩

theorem word_iff (st : SState) (w : String) : Word st w ↔ st.asStr = w.toList := by
  constructor
  · intro h; cases h <;> rfl
  · intro h
    cases st
    · have : w = "active" := by rw [← String.toList_inj, ← h]; rfl
      subst this; exact .active
    · have : w = "pending" := by rw [← String.toList_inj, ← h]; rfl
      subst this; exact .pending
    · have : w = "terminated" := by rw [← String.toList_inj, ← h]; rfl
      subst this; exact .terminated

theorem progress_state {code : Nat} {w : String} (h : Progress code w) : stateFor code = w.toList := by
  unfold stateFor
  cases h with
  | under h => rw [if_neg (by omega), if_neg (by omega)]
  | done h1 h2 => rw [if_pos ⟨h1, h2⟩]
  | failed h => rw [if_neg (by omega), if_pos h]

theorem sipfrag_text (code : Nat) (reason : Str) :
    sipfrag code reason = "SIP/2.0 ".toList ++ showNat code ++ " ".toList ++ reason ++ ['\r', '\n'] := by
  unfold sipfrag
  rw [show " ".toList = [' '] from rfl]
  simp only [List.append_assoc, List.cons_append, List.nil_append]

/-- what both kinds of NOTIFY have in common -/
theorem common {hs : Headers} {l : List (String × Str)} (hi : hs.inner = l.map (fun p : String × Str => ⟨p.1.toList, p.2⟩))
    {n : String} {v : Str} (h : pick l n = [v]) : Selects n.toList hs.inner [v] := (selects_pick hi n [v]).2 h.symm

theorem length_body (t : Str) : (utf8 t).length = utf8Len t := length_utf8 t

/-- C104: a NOTIFY of the client goes to the subscription's Contact, carries the number after the subscription's, its event,
the state it is given and the body with its length. -/
theorem C104_notify (ua : Ua) (branch : Str) (s : Sub) (st : SState) (body : Option Str) (r : Request)
    (h : createNotify ua branch s st body = .done r) :
    r.method = .notify ∧ r.uri = s.contact.raw ∧ CSeqOf r.headers (s.localCSeq + 1) ∧
    (∃ w, Word st w ∧ Selects "Subscription-State".toList r.headers.inner [w.toList]) ∧
    Selects "Event".toList r.headers.inner [s.id.event] ∧
    Selects "Contact".toList r.headers.inner [Bracketed ua.contactUri] ∧
    (∀ b, body = some b → Body r b) ∧ (body = none → Body r []) := by
  obtain ⟨hl, hm, hu, hb, hi⟩ := notify_inner h
  refine ⟨hm, hu, ?_, ?_, ?_, ?_, ?_, ?_⟩
  · refine Dlg.cseqOf_value (m := .notify) (first_of_selects (vs := []) (common hi ?_)) hl
    cases body <;> (unfold notifyHead notifyBody; simp only [List.cons_append, List.nil_append]; picks)
  · have : ∃ w, Word st w := by cases st <;> exact ⟨_, by constructor⟩
    obtain ⟨w, hw⟩ := this
    refine ⟨w, hw, common hi ?_⟩
    rw [← (word_iff _ _).1 hw]
    cases body <;> (unfold notifyHead notifyBody; simp only [List.cons_append, List.nil_append]; picks)
  · refine common hi ?_
    cases body <;> (unfold notifyHead notifyBody; simp only [List.cons_append, List.nil_append]; picks)
  · refine common hi ?_
    cases body <;> (unfold notifyHead notifyBody; simp only [List.cons_append, List.nil_append]; picks)
  · rintro b rfl
    refine ⟨hb, showNat (utf8Len b), common hi ?_, by rw [length_body]; exact Dlg.decimal_showNat _⟩
    unfold notifyHead notifyBody; simp only [List.cons_append, List.nil_append]; picks
  · rintro rfl
    refine ⟨hb, "0".toList, common hi ?_, ?_⟩
    · unfold notifyHead notifyBody; simp only [List.cons_append, List.nil_append]; picks
    · exact Dlg.decimal_showNat 0

/-- C104: a NOTIFY of the server with a status line goes to the subscription's Contact, carries the number after the
subscription's, its event, the state that goes with the code and the status line with its length; the subscription then has
that number and is otherwise as before. -/
theorem C104_sipfrag (l contact : SipUri) (branch : Str) (s s' : Sub) (code : Nat) (reason : Str) (r : Request)
    (h : createNotifySipfrag l contact branch s code reason = .done (some (r, s'))) :
    r.method = .notify ∧ r.uri = s.contact.raw ∧ CSeqOf r.headers (s.localCSeq + 1) ∧
    s' = { s with localCSeq := s.localCSeq + 1 } ∧
    (∀ w, Progress code w → Selects "Subscription-State".toList r.headers.inner [w.toList]) ∧
    Selects "Event".toList r.headers.inner [s.id.event] ∧
    Selects "Contact".toList r.headers.inner [Bracketed contact] ∧
    Selects "Content-Type".toList r.headers.inner ["message/sipfrag;version=2.0".toList] ∧
    ∃ text, StatusText code reason text ∧ Body r text := by
  obtain ⟨hv, hl, hs', hm, hu, hb, hi⟩ := sipfrag_inner h
  refine ⟨hm, hu, ?_, hs', ?_, ?_, ?_, ?_, sipfrag code reason, ⟨showNat code, Dlg.decimal_showNat _, ?_⟩, hb,
    showNat (utf8Len (sipfrag code reason)), ?_, by rw [length_body]; exact Dlg.decimal_showNat _⟩
  · refine Dlg.cseqOf_value (m := .notify) (first_of_selects (vs := []) (common hi ?_)) hl
    unfold fragHead; picks
  · intro w hw
    rw [← progress_state hw]
    refine common hi ?_
    unfold fragHead; picks
  · refine common hi ?_
    unfold fragHead; picks
  · refine common hi ?_
    unfold fragHead; picks
  · refine common hi ?_
    unfold fragHead; picks
  · exact sipfrag_text _ _
  · refine common hi ?_
    unfold fragHead; picks

/-- C104: a NOTIFY with a status line is refused exactly when the reason phrase is longer than 128 bytes or has a control
character. -/
theorem C104_sipfrag_refused (l contact : SipUri) (branch : Str) (s : Sub) (code : Nat) (reason : Str) :
    createNotifySipfrag l contact branch s code reason = .done none ↔
      128 < (utf8 reason).length ∨ ∃ c ∈ reason, c.toNat < 32 ∨ c.toNat = 127 ∨ (128 ≤ c.toNat ∧ c.toNat < 160) := by
  have key : Uas.validReason reason = false ↔ 128 < (utf8 reason).length ∨
      ∃ c ∈ reason, c.toNat < 32 ∨ c.toNat = 127 ∨ (128 ≤ c.toNat ∧ c.toNat < 160) := by
    rw [length_utf8]
    unfold Uas.validReason
    rw [Bool.and_eq_false_iff]
    apply or_congr
    · simp
    · simp only [Bool.not_eq_false', List.any_eq_true, isControl, Bool.or_eq_true, Bool.and_eq_true, decide_eq_true_eq]
      constructor
      · rintro ⟨c, hc, hx⟩; exact ⟨c, hc, by omega⟩
      · rintro ⟨c, hc, hx⟩; exact ⟨c, hc, by omega⟩
  rw [← key]
  constructor
  · intro h
    unfold createNotifySipfrag at h
    split at h
    · rename_i hv; simpa using hv
    · simp only [Run.bind_eq_done] at h
      obtain ⟨⟨n, s1⟩, h1, hs, h2, h3⟩ := h
      split at h3 <;> cases h3
  · intro h
    unfold createNotifySipfrag
    rw [h]
    rfl

/-- **C104 (partial).** Both kinds of NOTIFY name their subscription, from the notifier to the subscriber.  Missing: a URI with
a parameter or part that reads as a tag (`C104_uri_tag`). -/
theorem C104_named_partial (s : Sub) (r : Request) (own : SipUri)
    (h : (∃ ua branch st body, ua.localUri = own ∧ createNotify ua branch s st body = .done r) ∨
      (∃ contact branch code reason s', createNotifySipfrag own contact branch s code reason = .done (some (r, s'))))
    (ht : TagText s.id.fromTag ∧ TagText s.id.toTag) (hf : NoTag (Bracketed own)) (hto : NoTag (Bracketed s.remoteUri)) :
    Notifies r s.id := by
  rcases h with ⟨ua, branch, st, body, rfl, h⟩ | ⟨contact, branch, code, reason, s', h⟩
  · obtain ⟨hl, hm, hu, hb, hi⟩ := notify_inner h
    refine ⟨hm, common hi ?_, ⟨bareAddr ua.localUri s.id.toTag, common hi ?_, ?_⟩, ⟨bareAddr s.remoteUri s.id.fromTag, common hi ?_, ?_⟩,
      common hi ?_⟩
    · cases body <;> (unfold notifyHead notifyBody; simp only [List.cons_append, List.nil_append]; picks)
    · cases body <;> (unfold notifyHead notifyBody; simp only [List.cons_append, List.nil_append]; picks)
    · rw [bareAddr_eq]; exact tagOf_mk hf ht.2
    · cases body <;> (unfold notifyHead notifyBody; simp only [List.cons_append, List.nil_append]; picks)
    · rw [bareAddr_eq]; exact tagOf_mk hto ht.1
    · cases body <;> (unfold notifyHead notifyBody; simp only [List.cons_append, List.nil_append]; picks)
  · obtain ⟨hv, hl, hs', hm, hu, hb, hi⟩ := sipfrag_inner h
    refine ⟨hm, common hi ?_, ⟨bareAddr own s.id.toTag, common hi ?_, ?_⟩, ⟨bareAddr s.remoteUri s.id.fromTag, common hi ?_, ?_⟩,
      common hi ?_⟩
    · unfold fragHead; picks
    · unfold fragHead; picks
    · rw [bareAddr_eq]; exact tagOf_mk hf ht.2
    · unfold fragHead; picks
    · rw [bareAddr_eq]; exact tagOf_mk hto ht.1
    · unfold fragHead; picks

/-! ## C104: numbers -/

/-- C104: NOTIFYs the server makes one after the other have consecutive numbers. -/
theorem C104_consecutive (l contact : SipUri) (b1 b2 : Str) (s s1 s2 : Sub) (c1 c2 : Nat) (p1 p2 : Str) (r1 r2 : Request)
    (h1 : createNotifySipfrag l contact b1 s c1 p1 = .done (some (r1, s1)))
    (h2 : createNotifySipfrag l contact b2 s1 c2 p2 = .done (some (r2, s2))) (n : Nat) (hn : CSeqOf r1.headers n) :
    CSeqOf r2.headers (n + 1) := by
  obtain ⟨_, _, h, h', _⟩ := C104_sipfrag _ _ _ _ _ _ _ _ h1
  obtain ⟨_, _, k, _⟩ := C104_sipfrag _ _ _ _ _ _ _ _ h2
  cases Dlg.cseqOf_unique h hn
  rw [h'] at k
  exact k

/-- **C104.** Counterexample to increasing numbers: the client's `create_notify` does not count, so a second NOTIFY of the
same subscription has the number of the first, and a dialog that accepted the first refuses the second. -/
theorem C104_same_number (ua : Ua) (b1 b2 : Str) (s : Sub) (st1 st2 : SState) (t1 t2 : Option Str) (r1 r2 : Request)
    (h1 : createNotify ua b1 s st1 t1 = .done r1) (h2 : createNotify ua b2 s st2 t2 = .done r2) (e e' : Dlg.Dialog)
    (ha : e.updateFromRequest r1 = (.ok (), e')) : e'.updateFromRequest r2 = (.error .invalidCSeq, e') := by
  obtain ⟨m1, _, c1, _⟩ := C104_notify _ _ _ _ _ _ h1
  obtain ⟨m2, _, c2, _⟩ := C104_notify _ _ _ _ _ _ h2
  have m1 : r1.method.asStr ≠ "ACK".toList := by rw [m1]; decide
  have m2 : r2.method.asStr ≠ "ACK".toList := by rw [m2]; decide
  have hr := Dlg.C14_accepted_recorded e r1 e' _ m1 c1 ha
  obtain ⟨k, hk, k1, k2, _⟩ := (Dlg.C14_accepted_iff e r1 m1).1 ⟨e', ha⟩
  obtain rfl := Dlg.cseqOf_unique c1 hk
  unfold Dlg.Dialog.updateFromRequest
  rw [(cseqNumber_iff _ _).2 c2]
  simp only
  rw [if_neg (by omega), if_neg m2, (Dlg.validateCSeq_iff _).2 ⟨k1, by omega⟩]
  simp only
  rw [if_pos (by omega), hr]
  unfold Dlg.validateIncrement
  rw [if_pos (by omega)]

/-! ## C104: answering a NOTIFY -/

theorem stripPrefix_iff (p s t : Str) : stripPrefix p s = some t ↔ s = p ++ t := by
  unfold stripPrefix
  constructor
  · intro h
    split at h
    · rename_i hp
      cases h
      rw [List.isPrefixOf_iff_prefix] at hp
      obtain ⟨u, rfl⟩ := hp
      simp
    · cases h
  · rintro rfl
    rw [if_pos (by rw [List.isPrefixOf_iff_prefix]; exact List.prefix_append _ _)]
    simp

theorem smallTag_iff (v t : Str) : SmallTagOf v t ↔ plainTag v = some t := by
  unfold SmallTagOf plainTag
  have piece : ∀ q x, SmallTagPiece q x ↔ stripPrefix "tag=".toList (trim q) = some x := by
    intro q x
    unfold SmallTagPiece
    rw [strips_trim, stripPrefix_iff]
    exact eq_comm
  constructor
  · rintro ⟨pre, p, post, h1, h2, h3⟩
    rw [← (pieces_iff _ _ _).1 h1, List.findSome?_append]
    have : List.findSome? (fun p => stripPrefix "tag=".toList (trim p)) pre = none := by
      rw [List.findSome?_eq_none_iff]
      intro q hq
      cases hx : stripPrefix "tag=".toList (trim q) with
      | none => rfl
      | some x => exact absurd ((piece _ _).2 hx) (h3 q hq x)
    rw [this, List.findSome?_cons, (piece _ _).1 h2]
    rfl
  · intro h
    rw [List.findSome?_eq_some_iff] at h
    obtain ⟨pre, p, post, h1, h2, h3⟩ := h
    refine ⟨pre, p, post, (pieces_iff _ _ _).2 h1.symm, (piece _ _).2 h2, ?_⟩
    intro q hq x hx
    have := h3 q hq
    rw [(piece _ _).1 hx] at this
    cases this

theorem find_iff (m : SubMgr) (hs : Headers) (s : Sub) : findSubscription m hs = some s ↔
    ∃ c f t e, ReadsAs hs c f t e ∧ (m.get ⟨c, t, f, e⟩ = some s ∨ m.get ⟨c, t, f, e⟩ = none ∧ m.get ⟨c, f, t, e⟩ = some s) := by
  constructor
  · intro h
    unfold findSubscription at h
    split at h
    · rename_i c f t hc hf ht
      split at h
      · rename_i ft tt e hft htt he
        refine ⟨c, ft, tt, e, ⟨(first_iff _ _ _).2 hc, ⟨f, (first_iff _ _ _).2 hf, (smallTag_iff _ _).2 hft⟩,
          ⟨t, (first_iff _ _ _).2 ht, (smallTag_iff _ _).2 htt⟩, (package_iff _ _).2 he⟩, ?_⟩
        split at h
        · rename_i s' hs'
          cases h
          exact .inl hs'
        · rename_i hs'
          exact .inr ⟨hs', h⟩
      · cases h
    · cases h
  · rintro ⟨c, ft, tt, e, ⟨hc, ⟨f, hf, hft⟩, ⟨t, ht, htt⟩, he⟩, h⟩
    unfold findSubscription
    rw [(first_iff _ _ _).1 hc, (first_iff _ _ _).1 hf, (first_iff _ _ _).1 ht]
    simp only
    rw [(smallTag_iff _ _).1 hft, (smallTag_iff _ _).1 htt, (package_iff _ _).1 he]
    simp only
    rcases h with h | ⟨h1, h2⟩
    · rw [h]
    · rw [h1, h2]

/-- C104: the daemon answers a NOTIFY with 200 exactly if it is about a subscription in its table, as subscriber or as
notifier, and with 481 otherwise. -/
theorem C104_answer (m : SubMgr) (hs : Headers) :
    (answerNotify m hs = 200 ↔
      ∃ c f t e s, ReadsAs hs c f t e ∧ (m.get ⟨c, t, f, e⟩ = some s ∨ m.get ⟨c, f, t, e⟩ = some s)) ∧
    (answerNotify m hs = 200 ∨ answerNotify m hs = 481) := by
  constructor
  · unfold answerNotify
    constructor
    · intro h
      split at h
      · cases h
      · rename_i s hs'
        obtain ⟨c, f, t, e, h1, h2⟩ := (find_iff _ _ _).1 hs'
        exact ⟨c, f, t, e, s, h1, h2.imp id (·.2)⟩
    · rintro ⟨c, f, t, e, s, h1, h2⟩
      have : ∃ x, findSubscription m hs = some x := by
        cases hg : m.get ⟨c, t, f, e⟩ with
        | some x => exact ⟨x, (find_iff _ _ _).2 ⟨c, f, t, e, h1, .inl hg⟩⟩
        | none =>
          rcases h2 with h2 | h2
          · rw [hg] at h2; cases h2
          · exact ⟨s, (find_iff _ _ _).2 ⟨c, f, t, e, h1, .inr ⟨hg, h2⟩⟩⟩
      obtain ⟨x, hx⟩ := this
      rw [hx]
  · unfold answerNotify
    split
    · exact .inr rfl
    · exact .inl rfl

theorem noTag_small {v : Str} (h : NoTag v) : ∃ ps, Pieces ';' v ps ∧ ∀ q ∈ ps, ∀ x, ¬ SmallTagPiece q x := by
  obtain ⟨ps, h1, h2⟩ := h
  refine ⟨ps, h1, ?_⟩
  intro q hq x hx
  exact h2 q hq x ⟨"tag=".toList, hx, sameName_refl _⟩

theorem smallTagOf_mk {s t : Str} (hs : NoTag s) (ht : TagText t) : SmallTagOf (s ++ ";tag=".toList ++ t) t := by
  obtain ⟨ps, hps, hn⟩ := noTag_small hs
  obtain ⟨ps', hps', _⟩ := hs
  rw [pieces_iff] at hps
  subst hps
  refine ⟨splitChar ';' s, "tag=".toList ++ t, [], ?_, ?_, hn⟩
  · rw [pieces_iff, show s ++ ";tag=".toList ++ t = s ++ ';' :: ("tag=".toList ++ t) by
      rw [show ";tag=".toList = ';' :: "tag=".toList from rfl]; simp, Uas.splitChar_mid]
    rw [splitChar_of_not_mem ';' ("tag=".toList ++ t)]
    intro hm
    rcases List.mem_append.1 hm with hm | hm
    · revert hm; decide
    · exact ht.1 hm
  · unfold SmallTagPiece
    rw [strips_trim, Dlg.trim_tag ht]

/-- **C104 (partial).** A subscriber's daemon that holds the subscription of a NOTIFY recognises it and answers 200.  Missing: an event with
parameters (`C104_parameters_never`), and URIs that read as tags. -/
theorem C104_found_partial (m : SubMgr) (s held : Sub) (r : Request) (own : SipUri)
    (h : (∃ ua branch st body, ua.localUri = own ∧ createNotify ua branch s st body = .done r) ∨
      (∃ contact branch code reason s', createNotifySipfrag own contact branch s code reason = .done (some (r, s'))))
    (ht : TagText s.id.fromTag ∧ TagText s.id.toTag) (hf : NoTag (Bracketed own)) (hto : NoTag (Bracketed s.remoteUri))
    (he : ';' ∉ s.id.event ∧ Strips isWs s.id.event s.id.event) (hm : m.get s.id = some held) :
    findSubscription m r.headers = some held ∧ answerNotify m r.headers = 200 := by
  have hread : ReadsAs r.headers s.id.callId s.id.toTag s.id.fromTag s.id.event := by
    have hn := C104_named_partial s r own h ht hf hto
    have hfr : First r.headers "From" (bareAddr own s.id.toTag) := by
      rcases h with ⟨ua, branch, st, body, rfl, h⟩ | ⟨contact, branch, code, reason, s', h⟩
      · refine first_of_selects (vs := []) (common (notify_inner h).2.2.2.2 ?_)
        unfold notifyHead; simp only [List.cons_append, List.nil_append]
        cases body <;> (unfold notifyBody; picks)
      · refine first_of_selects (vs := []) (common (sipfrag_inner h).2.2.2.2.2.2 ?_)
        unfold fragHead; picks
    have hto' : First r.headers "To" (bareAddr s.remoteUri s.id.fromTag) := by
      rcases h with ⟨ua, branch, st, body, rfl, h⟩ | ⟨contact, branch, code, reason, s', h⟩
      · refine first_of_selects (vs := []) (common (notify_inner h).2.2.2.2 ?_)
        unfold notifyHead; simp only [List.cons_append, List.nil_append]
        cases body <;> (unfold notifyBody; picks)
      · refine first_of_selects (vs := []) (common (sipfrag_inner h).2.2.2.2.2.2 ?_)
        unfold fragHead; picks
    refine ⟨first_of_selects hn.callId, ⟨_, hfr, ?_⟩, ⟨_, hto', ?_⟩, s.id.event, s.id.event, [], first_of_selects hn.event, ?_, he.2⟩
    · rw [bareAddr_eq]; exact smallTagOf_mk hf ht.2
    · rw [bareAddr_eq]; exact smallTagOf_mk hto ht.1
    · rw [pieces_iff, splitChar_of_not_mem _ _ he.1]
  refine ⟨(find_iff _ _ _).2 ⟨_, _, _, _, hread, .inl hm⟩, (C104_answer _ _).1.2 ⟨_, _, _, _, held, hread, .inl hm⟩⟩

/-- **C104.** Counterexample: the daemon keeps a subscription under its whole Event value but looks NOTIFYs up by the part before
the parameters: it finds none for a subscription whose event has parameters, and answers 481 if it has no others. -/
theorem C104_parameters_never (m : SubMgr) (hk : ∀ id s, m.get id = some s → s.id = id) (hs : Headers) (s : Sub)
    (h : findSubscription m hs = some s) : ';' ∉ s.id.event := by
  obtain ⟨c, f, t, e, ⟨_, _, _, ⟨v, p, ps, h1, h2, h3⟩⟩, h4⟩ := (find_iff _ _ _).1 h
  have hev : s.id.event = e := by
    rcases h4 with h4 | ⟨_, h4⟩
    · rw [hk _ _ h4]
    · rw [hk _ _ h4]
  rw [hev]
  intro hmem
  rw [pieces_iff] at h2
  have hno := (join_splitChar ';' v).2 p (by rw [← h2]; simp)
  obtain ⟨a, b, he, _⟩ := h3
  apply hno
  rw [he]
  simp [hmem]

/-! ## C104: the first NOTIFY of the daemon -/

theorem pushQuiet_getAll (hs : Headers) (n : String) (v : Str) (k : String) (h : eqIgnoreCase n.toList k.toList = false) :
    (pushQuiet hs n v).getAll k.toList = hs.getAll k.toList := by
  unfold pushQuiet
  split
  · rename_i hs' hp
    unfold Headers.push at hp
    split at hp
    · cases hp
    · split at hp
      · cases hp
      · rename_i hd hh
        cases hp
        rw [Dlg.getAll_append]
        unfold Header.new at hh
        have : hd = ⟨n.toList, v⟩ := by
          repeat' (split at hh)
          all_goals first | (cases hh; done) | (cases hh; rfl)
        subst this
        rw [Uas.getAll_cons, if_neg (by rw [h]; decide)]
        simp [Headers.getAll]
  · rfl

theorem initial_inner {ua : Ua} {branch : Str} {s : Sub} {r : Request} (h : initialNotify ua branch s = .done r) :
    ∃ r0 body, createNotify ua branch s .active body = .done r0 ∧ r.method = r0.method ∧ r.uri = r0.uri ∧ r.body = r0.body ∧
      ∀ k : String, eqIgnoreCase "Content-Type".toList k.toList = false → eqIgnoreCase "Content-Length".toList k.toList = false →
        r.headers.getAll k.toList = r0.headers.getAll k.toList := by
  unfold initialNotify at h
  split at h
  · exact ⟨r, none, h, rfl, rfl, rfl, fun _ _ _ => rfl⟩
  · rename_i ct b hb
    simp only [Run.bind_eq_done] at h
    obtain ⟨r0, h1, h2⟩ := h
    cases h2
    refine ⟨r0, some b, h1, rfl, rfl, rfl, ?_⟩
    intro k k1 k2
    rw [pushQuiet_getAll _ _ _ _ k2, pushQuiet_getAll _ _ _ _ k1]

/-- C104: the NOTIFY the daemon sends after its 200 is one of the subscription it accepted: it goes to the subscription's
Contact, has the number after that of the SUBSCRIBE and names the event. -/
theorem C104_initial (l : SipUri) (agent : Str) (m m' : SubMgr) (rq : Request) (tag branch : Str) (r : Response) (s : Sub)
    (n : Request) (h : handleSubscribe l agent m rq tag branch = .done (.accepted r s n, m')) :
    n.method = .notify ∧ n.uri = s.contact.raw ∧ Selects "Event".toList n.headers.inner [s.id.event] ∧
    (∃ k, CSeqOf rq.headers k ∧ CSeqOf n.headers (k + 1)) ∧
    (TagText s.id.fromTag ∧ TagText s.id.toTag → NoTag (Bracketed l) → NoTag (Bracketed s.remoteUri) → Notifies n s.id) := by
  obtain ⟨s0, srv', h1, h2, h3, h4⟩ := handle_accepted h
  obtain ⟨n0, body, h5, e1, e2, e3, e4⟩ := initial_inner h3
  obtain ⟨k1, k2, k3, _, k5, _⟩ := C104_notify _ _ _ _ _ _ h5
  have sel : ∀ k : String, eqIgnoreCase "Content-Type".toList k.toList = false → eqIgnoreCase "Content-Length".toList k.toList = false →
      ∀ vs, Selects k.toList n0.headers.inner vs → Selects k.toList n.headers.inner vs := by
    intro k a b vs hv
    rw [selects_iff] at hv ⊢
    rw [e4 k a b]
    exact hv
  refine ⟨by rw [e1, k1], by rw [e2, k2], sel "Event" (by decide) (by decide) _ k5, ?_, ?_⟩
  · obtain ⟨_, _, _, _, remote, _, hs, _⟩ := accept_some h1
    have hc := (newSub_some hs).1.cseq
    have : s.localCSeq = s0.localCSeq := by rw [h2]; split <;> rfl
    refine ⟨s0.localCSeq, hc, ?_⟩
    rw [← this]
    obtain ⟨v, w, ws, ⟨vs, hv⟩, hw⟩ := k3
    exact ⟨v, w, ws, ⟨vs, sel "CSeq" (by decide) (by decide) _ hv⟩, hw⟩
  · intro t1 t2 t3
    obtain ⟨a1, a2, ⟨v, a3, a4⟩, ⟨w, a5, a6⟩, a7⟩ := C104_named_partial s n0 l (.inl ⟨_, _, _, _, rfl, h5⟩) t1 t2 t3
    exact ⟨by rw [e1]; exact a1, sel "Call-ID" (by decide) (by decide) _ a2, ⟨v, sel "From" (by decide) (by decide) _ a3, a4⟩,
      ⟨w, sel "To" (by decide) (by decide) _ a5, a6⟩, sel "Event" (by decide) (by decide) _ a7⟩

/-- **C104.** Counterexample to a NOTIFY that says how the subscription stands: the daemon's first NOTIFY always says it is
active, also after a SUBSCRIBE with an expiry of 0, which ends it. -/
theorem C104_always_active (l : SipUri) (agent : Str) (m m' : SubMgr) (rq : Request) (tag branch : Str) (r : Response) (s : Sub)
    (n : Request) (h : handleSubscribe l agent m rq tag branch = .done (.accepted r s n, m')) :
    Selects "Subscription-State".toList n.headers.inner ["active".toList] ∧
    (Granted rq.headers none 0 → s.state = .terminated ∧ m'.get s.id = none) := by
  obtain ⟨s0, srv', h1, h2, h3, h4⟩ := handle_accepted h
  obtain ⟨n0, body, h5, e1, e2, e3, e4⟩ := initial_inner h3
  obtain ⟨_, _, _, ⟨w, hw, k4⟩, _⟩ := C104_notify _ _ _ _ _ _ h5
  constructor
  · cases hw
    rw [selects_iff] at k4 ⊢
    rw [e4 _ (by decide) (by decide)]
    exact k4
  · intro hg
    obtain ⟨_, _, _, ⟨_, _, _, hw⟩, _, hz, _⟩ := C103_daemon_partial _ _ _ _ _ _ _ _ _ _ h
    have e1 := (granted_iff _ _ _).1 hg
    have e2 := (granted_iff _ _ _).1 hw
    exact hz (by omega)

theorem own_contact {u c : SipUri} (h : AddrUri (Bracketed u) c) (hu : SipUri.parse u.raw = some u) (h1 : '>' ∉ u.raw)
    (h2 : Strips isWs u.raw u.raw) : c = u := by
  obtain ⟨t, h3, h4⟩ := h
  have hb : AddrText (Bracketed u) u.raw := by
    refine .bracketed (a := []) (x := u.raw) (b := []) ?_ (by simp) h1 h2
    refine ⟨[], [], by simp [Bracketed], by simp, by simp, ?_, ?_⟩
    · intro c hc
      simp at hc
      subst hc
      decide
    · intro c hc
      rw [List.nil_append, List.getLast?_append] at hc
      simp at hc
      subst hc
      decide
  have e1 := (Dlg.addrText_iff _ _).1 h3
  have e2 := (Dlg.addrText_iff _ _).1 hb
  rw [e1] at e2
  cases e2
  rw [h4] at hu
  cases hu
  rfl

/-- **C104.** Counterexample to a NOTIFY that goes to the subscriber: the subscription made with the answer to a SUBSCRIBE has
the Contact of that answer, so the Request-URI of its NOTIFYs is the server's own Contact, whatever Contact the SUBSCRIBE
has. -/
theorem C104_to_itself (srv srv' : Srv) (au : Bool) (rq : Request) (e : Option Nat) (tag : Str) (r : Response) (s : Sub)
    (h : acceptSubscribe srv au rq e tag = .done (some (r, s), srv')) (he : ∀ n, e = some n → n < 2 ^ 32)
    (hu : SipUri.parse srv.contactUri.raw = some srv.contactUri) (h1 : '>' ∉ srv.contactUri.raw)
    (h2 : Strips isWs srv.contactUri.raw srv.contactUri.raw) :
    s.contact = srv.contactUri ∧
    (∀ ua branch st body n, createNotify ua branch s st body = .done n → n.uri = srv.contactUri.raw) ∧
    (∀ l c branch code reason n s', createNotifySipfrag l c branch s code reason = .done (some (n, s')) →
      n.uri = srv.contactUri.raw) := by
  obtain ⟨_, _, _, _, _, hc, _, ⟨remote, _, hrec⟩, _⟩ := C103_accepted _ _ _ _ _ _ _ _ h he
  obtain ⟨v, hv, ha⟩ := hrec.contact
  cases Dlg.first_unique hv (first_of_selects hc)
  have e := own_contact ha hu h1 h2
  refine ⟨e, ?_, ?_⟩
  · intro ua branch st body n hn
    rw [(C104_notify _ _ _ _ _ _ hn).2.1, e]
  · intro l c branch code reason n s' hn
    rw [(C104_sipfrag _ _ _ _ _ _ _ _ hn).2.1, e]

/-! ## Examples -/

def headersOf (l : List (String × String)) : Headers := ⟨l.map (fun p => ⟨p.1.toList, p.2.toList⟩)⟩

def aliceUri : SipUri := ⟨"sip:alice@a.example".toList, false, some "alice".toList, "a.example".toList, none, [], []⟩
def bobUri : SipUri := ⟨"sip:bob@b.example".toList, false, some "bob".toList, "b.example".toList, none, [], []⟩

/-- a SUBSCRIBE of Alice for the event, with the expiry -/
def subscribe (event expires : String) : Request :=
  ⟨Method.subscribe, "sip:bob@b.example".toList,
    headersOf [("Via", "SIP/2.0/UDP a.example;branch=z9hG4bK1"), ("From", "<sip:alice@a.example>;tag=fa"), ("To", "<sip:bob@b.example>"),
      ("Call-ID", "c1"), ("CSeq", "7 SUBSCRIBE"), ("Contact", "<sip:alice@192.0.2.7>"), ("Event", event), ("Expires", expires)], []⟩

/-- what the daemon did: the code, the new subscription, what the NOTIFY says (its URI, CSeq, Subscription-State and Content-Type), and
how many subscriptions it has afterwards -/
structure Did where
  code : Nat
  sub : Option SubId
  expires : Nat
  state : SState
  notify : List Str
  left : Nat
  deriving DecidableEq

def daemonDid (event expires : String) : Option Did :=
  match handleSubscribe bobUri "siphon".toList [] (subscribe event expires) "tb".toList "z9hG4bK2".toList with
  | .panic => none
  | .done (.refused c, m) => some ⟨c, none, 0, .active, [], m.length⟩
  | .done (.accepted r s n, m) =>
    some ⟨r.code, some s.id, s.expires, s.state, n.uri :: n.headers.getAll "CSeq".toList ++ n.headers.getAll "Subscription-State".toList ++
      n.headers.getAll "Content-Type".toList, m.length⟩

/-- accepted and kept; the NOTIFY goes to Bob, who sends it (`C104_to_itself`) -/
example : daemonDid "message-summary" "600" = some ⟨200, some ⟨"c1".toList, "fa".toList, "tb".toList, "message-summary".toList⟩, 600, .active,
      ["sip:bob@b.example".toList, "8 NOTIFY".toList, "active".toList, "text/plain".toList, "application/simple-message-summary".toList], 1⟩ := by
  decide +kernel
/-- ended, yet the NOTIFY says active (`C104_always_active`) -/
example : daemonDid "refer" "0" = some ⟨200, some ⟨"c1".toList, "fa".toList, "tb".toList, "refer".toList⟩, 0, .terminated,
      ["sip:bob@b.example".toList, "8 NOTIFY".toList, "active".toList], 0⟩ := by decide +kernel

/-- **C104.** Counterexample to one Content-Type: the body the daemon's first NOTIFY has for presence is labelled as plain text by
the first of two Content-Type headers. -/
theorem C104_two_types : ∃ r s n m, handleSubscribe bobUri "siphon".toList [] (subscribe "presence" "600") "tb".toList "z9hG4bK2".toList =
      .done (.accepted r s n, m) ∧
    n.headers.getAll "Content-Type".toList = ["text/plain".toList, "application/pidf+xml".toList] := by
  have h : (match handleSubscribe bobUri "siphon".toList [] (subscribe "presence" "600") "tb".toList "z9hG4bK2".toList with
    | .done (.accepted _ _ n, _) => decide (n.headers.getAll "Content-Type".toList = ["text/plain".toList, "application/pidf+xml".toList])
    | _ => false) = true := by decide +kernel
  split at h
  · rename_i r s n m hh
    exact ⟨r, s, n, m, hh, of_decide_eq_true h⟩
  · cases h

/-- Alice's subscription -/
def held (event : String) : Sub :=
  ⟨⟨"c1".toList, "fa".toList, "tb".toList, event.toList⟩, .active, aliceUri, bobUri, bobUri, 600, 7, 0⟩

/-- the same at Bob's, with Alice's address -/
def served (event : String) : Sub :=
  ⟨⟨"c1".toList, "fa".toList, "tb".toList, event.toList⟩, .active, bobUri, aliceUri, aliceUri, 600, 7, 0⟩

/-- the code with which Alice answers Bob's NOTIFY, and the number it has -/
def answered (event : String) : Option (Nat × Option Nat) :=
  match createNotify ⟨bobUri, bobUri, none, "siphon".toList⟩ "z9hG4bK3".toList (served event) .active none with
  | .panic => none
  | .done n => some (answerNotify ((SubMgr.insert [] (held event)).2) n.headers, cseqNumber n.headers)

example : answered "presence" = some (200, some 8) := by decide +kernel
/-- the subscription is there but has parameters in its event (`C104_parameters_never`) -/
example : answered "presence;id=7" = some (481, some 8) := by decide +kernel

/-- NOTIFYs of a REFER: 100, 180, 200 -/
def frags : Run (List (Option Nat × Bytes)) := do
  let some (r1, s1) ← createNotifySipfrag bobUri bobUri "z1".toList (served "refer") 100 "Trying".toList | .done []
  let some (r2, s2) ← createNotifySipfrag bobUri bobUri "z2".toList s1 180 "Ringing".toList | .done []
  let some (r3, _) ← createNotifySipfrag bobUri bobUri "z3".toList s2 200 "OK".toList | .done []
  .done [(cseqNumber r1.headers, r1.body), (cseqNumber r2.headers, r2.body), (cseqNumber r3.headers, r3.body)]

example : frags = .done [(some 8, utf8 "SIP/2.0 100 Trying\r\n".toList), (some 9, utf8 "SIP/2.0 180 Ringing\r\n".toList),
    (some 10, utf8 "SIP/2.0 200 OK\r\n".toList)] := by decide +kernel

/-- the messages of the examples say it all -/
example : (match newSubscriber (subscribe "presence" "600").headers (headersOf [("To", "<sip:bob@b.example>;tag=tb"), ("Contact", "<sip:bob@b.example>"),
      ("Expires", "300")]) aliceUri bobUri with
    | .done (some s) => decide (s = { held "presence" with expires := 300 })
    | _ => false) = true := by decide +kernel

/-- **C104.** Counterexample to `C104_named_partial` without its condition on URIs: a `tag` parameter inside the URI is read as the tag. -/
theorem C104_uri_tag : ∃ n, createNotify ⟨⟨"sip:bob@b.example;tag=x".toList, false, some "bob".toList, "b.example".toList, none,
      [("tag".toList, some "x".toList)], []⟩, bobUri, none, "siphon".toList⟩ "z9hG4bK3".toList (served "presence") .active none = .done n ∧
    headerTag n.headers "From".toList = .done (some "x>".toList) := by
  have h : (match createNotify ⟨⟨"sip:bob@b.example;tag=x".toList, false, some "bob".toList, "b.example".toList, none,
      [("tag".toList, some "x".toList)], []⟩, bobUri, none, "siphon".toList⟩ "z9hG4bK3".toList (served "presence") .active none with
    | .done n => decide (headerTag n.headers "From".toList = .done (some "x>".toList))
    | _ => false) = true := by decide +kernel
  split at h
  · rename_i n hh
    exact ⟨n, hh, of_decide_eq_true h⟩
  · cases h

/-- a REFER as in `C103_refer_none` -/
example : (match Dlg.create ⟨aliceUri, aliceUri, none, "x".toList⟩ "z9hG4bK3".toList
    ⟨⟨"c1".toList, "fa".toList, "tb".toList⟩, .confirmed, bobUri, [], 7, 0, none, aliceUri, bobUri, false, none, none, true⟩
    (.refer "<sip:carol@c.example>".toList true) with
    | .done r => decide (r.headers.getAll "CSeq".toList = ["8 REFER".toList] ∧
        r.headers.getAll "Refer-To".toList = ["<sip:carol@c.example>".toList])
    | .panic => false) = true := by decide +kernel

end Siphon.Sub
