import Verif.Bridge.PropsEnd
/-!
# C116: the end of a call that was not accepted
-/
namespace Siphon.Bridge
open HdrSpec TextSpec Spec
open Siphon.Dlg (Dialog DialogId Mgr copyHeader first_iff absent_iff)
open Siphon.Dlg.Spec (First Absent TagOf NoTag Names)
open Siphon.Sub.Spec (Target Dotted PortOf)

/-! ## Lemmas -/

/-- the leg and the channel of a call that is ringing -/
theorem ringing_state {x : Story} {t : Nat} {r0 : Response} {addr : Sub.Addr × Nat} {inv : Request} {a : Str}
    (h : x.Calls t r0 addr inv a) (hr : x.Ringing t) :
    ∃ lg, placeCall x.cfg x.look x.f x.now t x.rq = .stored lg ∧ inv = lg.invite ∧ socketOf lg.callee = some addr ∧
      (run x.cfg init x.events).1.legs.get x.f.callId = some lg ∧
      (run x.cfg init x.events).1.chans.get t = some ⟨x.f.callId, [], true⟩ := by
  obtain ⟨lg, hp, hi, hs, _, rs, hrs, hrel⟩ := called (post := x.post) h.me h.ok h.id h.call h.leaves
  obtain ⟨arr, r0', rs', harr, hearly, hans, hlen⟩ := hr
  rw [answers_iff] at hans
  unfold Story.events at hans ⊢
  rw [hrs] at hans
  cases hans
  rw [arrived_iff] at harr
  rw [← harr] at hrel
  refine ⟨lg, hp, hi, hs, ?_⟩
  cases hrel with
  | going q dn h1 h2 h3 h4 h5 h6 =>
    have e1 := each_length h5
    have e2 := congrArg List.length h3
    rw [List.length_append] at e2
    have : q = [] := List.length_eq_zero_iff.mp (by omega)
    subst this
    exact ⟨h2, h1⟩
  | ended q dn r' rest h1 h2 h3 h4 h5 h6 =>
    have := hearly r' (by rw [h2]; simp)
    omega

/-- the headers of the 487 the bridge makes for itself -/
theorem terminated_lines {rq : Request} (ha : Answerable rq) {cid frm to cseq : Str} (h1 : First rq.headers "Call-ID" cid)
    (h2 : First rq.headers "From" frm) (h3 : First rq.headers "To" to) (h4 : First rq.headers "CSeq" cseq) :
    Lines (terminated rq).headers (copyHeader rq.headers "Via" ++ [("From", frm), ("To", to), ("Call-ID", cid), ("CSeq", cseq),
      ("Content-Length", "0".toList)]) := by
  rw [first_iff] at h1 h2 h3 h4
  have hv := copyHeader_ok ha.clean goodName_via
  show Lines (putAll (answerTo rq.headers ++ [("Content-Length", "0".toList)]) .empty) _
  have e : answerTo rq.headers ++ [("Content-Length", "0".toList)] = copyHeader rq.headers "Via" ++ [("From", frm), ("To", to), ("Call-ID", cid),
      ("CSeq", cseq), ("Content-Length", "0".toList)] := by
    unfold answerTo
    have c2 : copyHeader rq.headers "From" = [("From", frm)] := by unfold copyHeader; rw [h2]
    have c3 : copyHeader rq.headers "To" = [("To", to)] := by unfold copyHeader; rw [h3]
    have c1 : copyHeader rq.headers "Call-ID" = [("Call-ID", cid)] := by unfold copyHeader; rw [h1]
    have c4 : copyHeader rq.headers "CSeq" = [("CSeq", cseq)] := by unfold copyHeader; rw [h4]
    rw [c1, c2, c3, c4]
    simp
  rw [e]
  apply lines_putAll
  · rw [List.length_append]
    simp only [List.length_cons, List.length_nil]
    omega
  · intro p hp
    rcases List.mem_append.mp hp with hp | hp
    · exact (hv.2 p hp).2
    · simp only [List.mem_cons, List.not_mem_nil, or_false] at hp
      rcases hp with rfl | rfl | rfl | rfl | rfl
      · exact ⟨goodName_from, get_fits ha.clean h2⟩
      · exact ⟨goodName_to, get_fits ha.clean h3⟩
      · exact ⟨goodName_callId, get_fits ha.clean h1⟩
      · exact ⟨goodName_cseq, get_fits ha.clean h4⟩
      · exact ⟨goodName_clen, fits_zero⟩

/-- what it says under a name -/
theorem terminated_get {rq : Request} (ha : Answerable rq) {cid frm to cseq : Str} (h1 : First rq.headers "Call-ID" cid)
    (h2 : First rq.headers "From" frm) (h3 : First rq.headers "To" to) (h4 : First rq.headers "CSeq" cseq) (n : Str)
    (hn : eqIgnoreCase "Via".toList n = false) :
    (terminated rq).headers.get n = Headers.get ⟨mk [("From", frm), ("To", to), ("Call-ID", cid), ("CSeq", cseq), ("Content-Length", "0".toList)]⟩ n := by
  rw [get_lines (terminated_lines ha h1 h2 h3 h4) n, get_mk_skip]
  intro p hp
  have := (copyHeader_ok ha.clean goodName_via).2 p hp
  rw [this.1]
  exact hn

theorem terminated_passable {rq : Request} (ha : Answerable rq) (hto : ∀ v, First rq.headers "To" v → NoLowTag v) :
    Passable rq (terminated rq) ∧ NoCalleeTag (terminated rq) := by
  obtain ⟨cid, h1⟩ := ha.callId
  obtain ⟨frm, h2, a2⟩ := ha.from_
  obtain ⟨to, h3, a3⟩ := ha.to
  obtain ⟨cseq, h4⟩ := ha.cseq
  have hT : (terminated rq).headers.get "To".toList = some to := by
    rw [terminated_get ha h1 h2 h3 h4 _ (by decide)]
    simp only [get_mk_cons]
    rfl
  have hF : (terminated rq).headers.get "From".toList = some frm := by
    rw [terminated_get ha h1 h2 h3 h4 _ (by decide)]
    simp only [get_mk_cons]
    rfl
  have hno : NoCalleeTag (terminated rq) := .inr ⟨to, (first_iff _ _ _).mpr hT, hto to h3⟩
  refine ⟨⟨?_, by show 100 ≤ 487; omega, by show 0 ≤ _; omega, ?_, ?_⟩, hno⟩
  · have hl := terminated_lines ha h1 h2 h3 h4
    unfold Lines at hl
    rw [hl]
    intro h hh
    obtain ⟨p, hp, rfl⟩ := List.mem_map.mp hh
    rcases List.mem_append.mp hp with hp | hp
    · exact ((copyHeader_ok ha.clean goodName_via).2 p hp).2.2
    · rw [first_iff] at h1 h2 h3 h4
      simp only [List.mem_cons, List.not_mem_nil, or_false] at hp
      rcases hp with rfl | rfl | rfl | rfl | rfl
      · exact get_fits ha.clean h2
      · exact get_fits ha.clean h3
      · exact get_fits ha.clean h1
      · exact get_fits ha.clean h4
      · exact fits_zero
  · intro v hv t ht
    have e1 := (calleeTag_some _ t).mpr ht
    rw [(calleeTag_none _).mpr hno] at e1
    cases e1
  · intro v hv
    rcases hv with hv | hv
    · rw [first_iff, hF] at hv; cases hv; exact a2
    · rw [first_iff, hT] at hv; cases hv; exact a3

/-- the response the caller gets for it -/
theorem terminated_relayed {me : Str} {rq : Request} {r' : Response} (ha : Answerable rq) (hto : ∀ v, First rq.headers "To" v → NoLowTag v)
    (h : Relayed me rq (terminated rq) r') : r'.code = 487 ∧ r'.reason = "Request Terminated".toList ∧ r'.body = [] ∧
    ∃ vias cid frm to cseq len, Selects "Via".toList rq.headers.inner vias ∧ First rq.headers "Call-ID" cid ∧ First rq.headers "From" frm ∧
      First rq.headers "To" to ∧ First rq.headers "CSeq" cseq ∧ DecDigits len 0 ∧
      Lines r'.headers (vias.map (fun v => ("Via", v)) ++ [("Call-ID", cid), ("From", frm), ("CSeq", cseq), ("To", to),
        ("Contact", '<' :: me ++ ['>']), ("Content-Length", len)]) := by
  have hst : r'.code = 487 ∧ r'.reason = "Request Terminated".toList ∧ r'.body = [] := by
    rcases h.status with ⟨_, h1, h2, h3⟩ | ⟨h1, _⟩
    · exact ⟨h1, h2, h3⟩
    · exact absurd h1 (by show ¬ (487 = 407); omega)
  refine ⟨hst.1, hst.2.1, hst.2.2, ?_⟩
  obtain ⟨vias, cid, frm, to, cseq, to', ctype, len, kept, h1, h2, h3, h4, h5, h6, h7, h8, h9, h10⟩ := h.headers
  have hno := (terminated_passable ha hto).2
  have e1 : to' = to := by
    rcases h6 with ⟨_, e⟩ | ⟨t, ht, _⟩
    · exact e
    · have e1 := (calleeTag_some _ t).mpr ht
      rw [(calleeTag_none _).mpr hno] at e1
      cases e1
  have e2 : ctype = [] := by
    rcases h7 with ⟨_, e⟩ | ⟨e, _⟩
    · exact e
    · exact absurd rfl e
  have e3 : kept = [] := by
    rw [copies_iff] at h9
    rw [h9]
    have : ∀ n ∈ ["Allow", "Supported", "Server", "User-Agent", "RSeq", "Require"], copyHeader (terminated rq).headers n = [] := by
      intro n hn
      unfold copyHeader
      have : (terminated rq).headers.get n.toList = none := by
        rw [terminated_get ha h2 h3 h4 h5 _ (by revert n; decide)]
        simp only [List.mem_cons, List.not_mem_nil, or_false] at hn
        rcases hn with rfl | rfl | rfl | rfl | rfl | rfl <;> (simp only [get_mk_cons]; rfl)
      rw [this]
    rw [List.flatMap_eq_nil_iff]
    exact this
  subst e1 e2 e3
  rw [hst.2.2] at h8
  refine ⟨vias, cid, frm, to', cseq, len, h1, h2, h3, h4, h5, h8, ?_⟩
  simpa using h10

theorem overwrite_cons (n v : Str) (m : String) (w : Str) (l : List (String × Str)) : Headers.overwriteFirst n v (mk ((m, w) :: l)) =
    if eqIgnoreCase m.toList n then some (⟨m.toList, v⟩ :: mk l) else (Headers.overwriteFirst n v (mk l)).map (⟨m.toList, w⟩ :: ·) := rfl

def without (n : Str) : List (String × Str) → List (String × Str)
  | [] => []
  | (m, w) :: l => if eqIgnoreCase m.toList n then without n l else (m, w) :: without n l

theorem retain_mk (n : Str) (l : List (String × Str)) : (Headers.mk (mk l)).retain (fun h => !h.nameEq n) = ⟨mk (without n l)⟩ := by
  unfold Headers.retain
  congr 1
  induction l with
  | nil => rfl
  | cons p l ih =>
    obtain ⟨m, w⟩ := p
    show List.filter _ (⟨m.toList, w⟩ :: mk l) = _
    unfold without
    by_cases h : eqIgnoreCase m.toList n = true
    · rw [if_pos h, List.filter_cons_of_neg (by show ¬ ((!eqIgnoreCase m.toList n) = true); simp [h]), ih]
    · rw [if_neg h, List.filter_cons_of_pos (by show (!eqIgnoreCase m.toList n) = true; simp [h]), ih]
      rfl

/-- the header lines of the CANCEL -/
def cancelLines (branch callId tag agent : Str) (caller me callee : SipUri) (sdp : Option Str) : List (String × Str) :=
  [("Via", "SIP/2.0/UDP placeholder;branch=".toList ++ branch), ("From", Dlg.bareAddr caller tag),
    ("To", Dlg.angle callee), ("Call-ID", callId), ("CSeq", "1 CANCEL".toList), ("Contact", Dlg.angle me),
    ("Max-Forwards", "70".toList), ("User-Agent", agent)] ++
    (match sdp with | none => [] | some _ => [("Content-Type", "application/sdp".toList)]) ++ [("Content-Length", "0".toList)]

theorem cancel_lines {l : Leg} {branch callId tag agent : Str} {caller me callee : SipUri} {sdp : Option Str}
    (h : Lines l.invite.headers (inviteLines branch callId tag agent caller me callee sdp)) :
    Lines (bridgedCancel l).headers (cancelLines branch callId tag agent caller me callee sdp) := by
  have hh : l.invite.headers = ⟨mk (inviteLines branch callId tag agent caller me callee sdp)⟩ := by
    cases he : l.invite.headers with
    | mk inner =>
      rw [he] at h
      exact congrArg Headers.mk h
  have hg : l.invite.headers.get "CSeq".toList = some "1 INVITE".toList := by
    rw [hh]
    unfold inviteLines
    simp only [List.cons_append, List.nil_append, get_mk_cons]
    rfl
  have hw : splitWhitespace "1 INVITE".toList = ["1".toList, "INVITE".toList] := by decide +kernel
  have hn : validateHeaderName "CSeq".toList = .ok () := by decide +kernel
  have hv : validateHeaderValue ("1".toList ++ " CANCEL".toList) = .ok () := by decide +kernel
  have e : "1".toList ++ " CANCEL".toList = "1 CANCEL".toList := by decide
  unfold bridgedCancel
  rw [hg]
  simp only [hw]
  unfold setQuiet Headers.setOrPush
  simp only [hn, hv]
  rw [hh, e]
  have c1 : eqIgnoreCase "Via".toList "CSeq".toList = false := by decide +kernel
  have c2 : eqIgnoreCase "From".toList "CSeq".toList = false := by decide +kernel
  have c3 : eqIgnoreCase "To".toList "CSeq".toList = false := by decide +kernel
  have c4 : eqIgnoreCase "Call-ID".toList "CSeq".toList = false := by decide +kernel
  have c5 : eqIgnoreCase "CSeq".toList "CSeq".toList = true := by decide +kernel
  have o : Headers.overwriteFirst "CSeq".toList "1 CANCEL".toList (mk (inviteLines branch callId tag agent caller me callee sdp)) =
      some (mk ([("Via", "SIP/2.0/UDP placeholder;branch=".toList ++ branch), ("From", Dlg.bareAddr caller tag),
        ("To", Dlg.angle callee), ("Call-ID", callId), ("CSeq", "1 CANCEL".toList), ("Contact", Dlg.angle me),
        ("Max-Forwards", "70".toList), ("User-Agent", agent)] ++ Dlg.sdpHeaders sdp)) := by
    unfold inviteLines
    simp only [List.cons_append, List.nil_append, overwrite_cons, c1, c2, c3, c4, c5, if_true, Bool.false_eq_true, if_false, Option.map_some]
    rfl
  rw [o]
  simp only
  have k1 : eqIgnoreCase "Via".toList "Content-Length".toList = false := by decide +kernel
  have k2 : eqIgnoreCase "From".toList "Content-Length".toList = false := by decide +kernel
  have k3 : eqIgnoreCase "To".toList "Content-Length".toList = false := by decide +kernel
  have k4 : eqIgnoreCase "Call-ID".toList "Content-Length".toList = false := by decide +kernel
  have k5 : eqIgnoreCase "CSeq".toList "Content-Length".toList = false := by decide +kernel
  have k6 : eqIgnoreCase "Contact".toList "Content-Length".toList = false := by decide +kernel
  have k7 : eqIgnoreCase "Max-Forwards".toList "Content-Length".toList = false := by decide +kernel
  have k8 : eqIgnoreCase "User-Agent".toList "Content-Length".toList = false := by decide +kernel
  have k9 : eqIgnoreCase "Content-Type".toList "Content-Length".toList = false := by decide +kernel
  have k0 : eqIgnoreCase "Content-Length".toList "Content-Length".toList = true := by decide +kernel
  unfold cancelLines Dlg.sdpHeaders Lines
  cases sdp with
  | none =>
    simp only [List.cons_append, List.nil_append, retain_mk, without, k0, k1, k2, k3, k4, k5, k6, k7, k8, if_true, Bool.false_eq_true, if_false]
    rw [pushQuiet_ok (by show 8 < 200; omega) goodName_clen fits_zero]
    rfl
  | some b =>
    simp only [List.cons_append, List.nil_append, retain_mk, without, k0, k1, k2, k3, k4, k5, k6, k7, k8, k9, if_true, Bool.false_eq_true, if_false]
    rw [pushQuiet_ok (by show 9 < 200; omega) goodName_clen fits_zero]
    rfl

/-! ## The properties -/

theorem enqueue_chan {s : St} {t : Nat} {o : Str} (r : Response) (h : s.chans.get t = some ⟨o, [], true⟩) :
    (enqueue s t r).chans.get t = some ⟨o, [r], true⟩ := by
  unfold enqueue
  simp only
  rw [Tbl.get_update_self, h]
  rfl

/-- the four parts -/
theorem cancel_steps {cfg : Cfg} {s : St} {lg : Leg} {t : Nat} {b a : Str} {q : Request} {f : Fresh} {ok r' : Response} {addr : Sub.Addr × Nat}
    {m' : Mgr} (hme : ∃ me, SipUri.parse cfg.localUri = some me) (hget : s.legs.get b = some lg) (hal : Alone a b s) (hnd : s.legs.keys.Nodup)
    (hin : lg.inId = a) (hch : lg.chan = t) (hs : socketOf lg.callee = some addr) (hchan : s.chans.get t = some ⟨b, [], true⟩)
    (hq : First q.headers "Call-ID" a) (hok : Uas.createResponse q.headers 200 "OK".toList f.reply = .done ok)
    (htr : transform cfg lg s.mgr (terminated lg.caller) = (.response r', lg, m')) (hcode : r'.code = 487) (i1 i2 i3 : Nat) :
    ∃ s1 s2 s3 s4, step cfg s (.cancel q i1 f) = (s1, [.reply s.next ok]) ∧
      step cfg s1 (.cancelOn s.cancels.length i2) = (s2, [.tcp addr (bridgedCancel lg)]) ∧
      step cfg s2 (.relay t) = (s3, [.reply t r']) ∧ step cfg s3 (.cancelOn s.cancels.length i3) = (s4, []) ∧ s4.legs.get b = none := by
  obtain ⟨me, hme⟩ := hme
  have hby : ∀ i, byIncoming s i a = some lg := byIncoming_only hnd hal hget hin
  generalize hr4 : terminated lg.caller = r4 at *
  generalize hbc : bridgedCancel lg = bc
  have s1 : step cfg s (.cancel q i1 f) = ({ enqueue { s with next := s.next + 1 } t r4 with
      cancels := s.cancels ++ [⟨a, false⟩] }, [.reply s.next ok]) := by
    show onCancel cfg s q i1 f = _
    unfold onCancel
    have hb : byIncoming { s with next := s.next + 1 } i1 a = some lg := hby i1
    simp only [callIdOf_first hq, hme, hok, hb, hch, hr4]
  have s2 : step cfg { enqueue { s with next := s.next + 1 } t r4 with cancels := s.cancels ++ [⟨a, false⟩] } (.cancelOn s.cancels.length i2) =
      ({ enqueue { s with next := s.next + 1 } t r4 with cancels := s.cancels ++ [⟨a, true⟩] }, [.tcp addr bc]) := by
    show onCancelOn _ _ _ = _
    unfold onCancelOn
    have hb : byIncoming { enqueue { s with next := s.next + 1 } t r4 with cancels := s.cancels ++ [⟨a, true⟩] } i2 a = some lg := hby i2
    have hk : (s.cancels ++ [(⟨a, false⟩ : Cancel)])[s.cancels.length]? = some ⟨a, false⟩ := by simp
    have hset : (s.cancels ++ [(⟨a, false⟩ : Cancel)]).set s.cancels.length ⟨a, true⟩ = s.cancels ++ [⟨a, true⟩] := by
      simp
    simp only [hk, Bool.false_eq_true, if_false, hset, hb, hs, hbc]
    rfl
  have hq1 : (enqueue { s with next := s.next + 1 } t r4).chans.get t = some ⟨b, [r4], true⟩ := enqueue_chan r4 hchan
  have s3 : ∃ s3, step cfg { enqueue { s with next := s.next + 1 } t r4 with cancels := s.cancels ++ [⟨a, true⟩] } (.relay t) =
      (s3, [.reply t r']) ∧ s3.cancels = s.cancels ++ [⟨a, true⟩] ∧ s3.legs = (s.legs.update b (fun _ => lg)).remove b := by
    show ∃ s3, onRelay _ _ _ = (s3, _) ∧ _
    unfold onRelay
    have hg2 : (enqueue { s with next := s.next + 1 } t r4).legs.get b = some lg := hget
    have ht2 : transform cfg lg (enqueue { s with next := s.next + 1 } t r4).mgr r4 = (.response r', lg, m') := htr
    simp only [hq1, hg2, ht2]
    rw [if_neg (by omega), if_neg (by omega)]
    exact ⟨_, rfl, rfl, rfl⟩
  obtain ⟨st3, s3, c3, g3⟩ := s3
  have hgone : st3.legs.get b = none := by rw [g3, Tbl.get_remove_self]
  have hnone : byIncoming st3 i3 a = none := by
    refine byIncoming_gone (b := b) ?_ hgone i3
    intro e he
    rw [g3] at he
    rcases mem_update (mem_remove he) with ⟨he, _⟩ | ⟨v, _, rfl⟩
    · exact hal e he
    · exact hal _ (get_mem _ hget)
  have s4 : step cfg st3 (.cancelOn s.cancels.length i3) = ({ st3 with cancels := s.cancels }, []) := by
    show onCancelOn _ _ _ = _
    unfold onCancelOn
    have hk : (s.cancels ++ [(⟨a, true⟩ : Cancel)])[s.cancels.length]? = some ⟨a, true⟩ := by simp
    have her : (s.cancels ++ [(⟨a, true⟩ : Cancel)]).eraseIdx s.cancels.length = s.cancels := by
      rw [List.eraseIdx_append_of_length_le (Nat.le_refl _)]
      simp
    have hb : byIncoming { st3 with cancels := s.cancels } i3 a = none := hnone
    rw [c3]
    simp only [hk, if_true, her, hb]
  exact ⟨_, _, st3, _, s1, s2, s3, s4, hgone⟩

theorem invite_names {hs : Headers} {branch callId tag agent : Str} {caller me callee : SipUri} {sdp : Option Str}
    (h : Lines hs (inviteLines branch callId tag agent caller me callee sdp)) :
    First hs "From" (Dlg.bareAddr caller tag) ∧ First hs "To" (Dlg.angle callee) := by
  rw [first_iff, first_iff, get_lines h, get_lines h]
  unfold inviteLines
  simp only [List.cons_append, List.nil_append, get_mk_cons]
  exact ⟨rfl, rfl⟩

/-- **C116.** The caller of a call that is ringing cancels it, and the parts of the handling follow one another: the CANCEL is answered 200,
the callee gets one CANCEL for the INVITE it was sent (the same Request-URI, Via, From, To, Call-ID and number), and the caller's INVITE is
answered 487 in its own transaction.  Then the call is gone.  (The 487 has the To of the request, without any tag, and the CANCEL still has
the Content-Type of the INVITE though it has no body.) -/
theorem C116_cancelled {x : Story} {t : Nat} {r0 : Response} {addr : Sub.Addr × Nat} {inv : Request} {a : Str}
    (h : x.Calls t r0 addr inv a) (hr : x.Ringing t) (hto : ∀ v, First x.rq.headers "To" v → NoLowTag v)
    {q : Request} (hq : First q.headers "Call-ID" a) {f : Fresh} (hrep : Repliable q f.reply) (i1 i2 i3 : Nat) :
    ∃ k t1 ok s1 out s2 r487 s3 s4,
      step x.cfg (run x.cfg init x.events).1 (.cancel q i1 f) = (s1, [.reply t1 ok]) ∧ Replies q 200 ok ∧
      step x.cfg s1 (.cancelOn k i2) = (s2, [.tcp addr out]) ∧
      step x.cfg s2 (.relay t) = (s3, [.reply t r487]) ∧
      step x.cfg s3 (.cancelOn k i3) = (s4, []) ∧ s4.legs.get x.f.callId = none ∧
      out.method = .cancel ∧ out.uri = inv.uri ∧ out.body = [] ∧
      (∃ frm to ct, First inv.headers "From" frm ∧ First inv.headers "To" to ∧
        (x.rq.body = [] ∧ ct = [] ∨ x.rq.body ≠ [] ∧ ct = [("Content-Type", "application/sdp".toList)]) ∧
        Lines out.headers ([("Via", "SIP/2.0/UDP placeholder;branch=".toList ++ x.f.branch), ("From", frm), ("To", to), ("Call-ID", x.f.callId),
          ("CSeq", "1 CANCEL".toList), ("Contact", '<' :: x.cfg.localUri ++ ">".toList), ("Max-Forwards", "70".toList),
          ("User-Agent", x.cfg.agent)] ++ ct ++ [("Content-Length", "0".toList)])) ∧
      r487.code = 487 ∧ r487.reason = "Request Terminated".toList ∧ r487.body = [] ∧
      ∃ vias frm to cseq len, Selects "Via".toList x.rq.headers.inner vias ∧ First x.rq.headers "From" frm ∧
        First x.rq.headers "To" to ∧ First x.rq.headers "CSeq" cseq ∧ DecDigits len 0 ∧
        Lines r487.headers (vias.map (fun v => ("Via", v)) ++ [("Call-ID", a), ("From", frm), ("CSeq", cseq), ("To", to),
          ("Contact", '<' :: x.cfg.localUri ++ ['>']), ("Content-Length", len)]) := by
  obtain ⟨lg, hp, hi, hs, hget, hchan⟩ := ringing_state h hr
  obtain ⟨l1, l2, l3, l4, l5⟩ := placed_leg hp
  obtain ⟨target, c, rest, caller, me, sdp, p1, p2, p3, p4, p5, p6, p7, p8, p9, p10⟩ := placed_parts hp
  obtain ⟨j1, j2, j3, j4, j5⟩ := createInvite_inner p7
  have hal := story_alone h
  have hnd := nodup_run x.cfg x.events init nodup_init
  have hin : lg.inId = a := l3 a h.id
  obtain ⟨ok, hok, hrok⟩ := reply_ok hrep
  have hpass := (terminated_passable h.ok hto).1
  rw [← l4] at hpass
  obtain ⟨r', lg', m', htr, hrel⟩ := transform_passes (cfg := x.cfg) (m := (run x.cfg init x.events).1.mgr) (by rw [l4]; exact h.ok) hpass h.me
  have hlg : lg' = lg := by
    have := transform_early (cfg := x.cfg) (leg := lg) (m := (run x.cfg init x.events).1.mgr) (r := terminated x.rq)
      (by show ¬ (200 ≤ 487 ∧ 487 < 300); omega)
    rw [← l4, htr] at this
    exact this
  subst hlg
  rw [l4] at hrel
  obtain ⟨e1, e2, e3, vias, cid, frm, to, cseq, len, v1, v2, v3, v4, v5, v6, v7⟩ := terminated_relayed h.ok hto hrel
  have hcid : cid = a := Dlg.first_unique v2 h.id
  subst hcid
  obtain ⟨s1, s2, s3, s4, t1, t2, t3, t4, t5⟩ := cancel_steps ⟨me, p5⟩ hget hal hnd hin l2 hs hchan hq hok htr e1 i1 i2 i3
  have hme : me.raw = x.cfg.localUri := (UriP.parse_sound p5).2
  have hsdp := sdpLines p6
  refine ⟨_, _, ok, s1, bridgedCancel lg', s2, r', s3, s4, t1, hrok, t2, t3, t4, t5, rfl, by rw [hi]; rfl, rfl, ?_, e1, e2, e3,
    vias, frm, to, cseq, len, v1, v3, v4, v5, v6, v7⟩
  have hl := cancel_lines j5
  have hm : Dlg.angle me = '<' :: x.cfg.localUri ++ ">".toList := by
    unfold Dlg.angle
    rw [hme]
  unfold cancelLines at hl
  rw [hm] at hl
  obtain ⟨n1, n2⟩ := invite_names j5
  rw [← hi] at n1 n2
  cases sdp with
  | none => exact ⟨_, _, [], n1, n2, .inl ⟨hsdp.2.2 rfl, rfl⟩, hl⟩
  | some b =>
    refine ⟨_, _, [("Content-Type", "application/sdp".toList)], n1, n2, .inr ⟨?_, rfl⟩, hl⟩
    rcases hsdp.1 with ⟨_, hb⟩ | ⟨hb, _⟩
    · simp [Dlg.sdpHeaders] at hb
    · exact hb

namespace Cases

/-- a call that rings -/
def rings : Story := ⟨me, [], inv, look, fr, 0, 0, [.response ringing] ++ List.replicate 1 (.relay 0)⟩
/-- the caller's CANCEL -/
def stop : Request := within .cancel "in1" "<sip:alice@10.0.0.1>;tag=A" "<sip:bob@example.org>" "7 CANCEL"

-- a call that rings is cancelled
example : ∃ k t1 ok s1 out s2 r487 s3 s4,
    step me (run me init rings.events).1 (.cancel stop 0 fr) = (s1, [.reply t1 ok]) ∧ step me s1 (.cancelOn k 0) = (s2, [.tcp (.v4 10 0 0 2, 5080) out]) ∧
    step me s2 (.relay 0) = (s3, [.reply 0 r487]) ∧ step me s3 (.cancelOn k 0) = (s4, []) := by
  obtain ⟨r0, addr, out, hc⟩ := call_placed
  have ha : addr = (.v4 10 0 0 2, 5080) := by
    have : (match (step me (run me init []).1 call).2 with | [.reply 0 _, .tcp x _] => decide (x = (.v4 10 0 0 2, 5080)) | _ => false) = true := by
      decide +kernel
    rw [hc] at this
    simpa using this
  subst ha
  have hl : ∀ e ∈ [] ++ [Ev.response ringing], Leaves inv "in1".toList fr.callId 0 e := by
    intro e he
    rw [List.mem_singleton.mp (show e ∈ [Ev.response ringing] from he)]
    exact fun _ => resp_passable 180 (by decide)
  have hcalls : rings.Calls 0 r0 (.v4 10 0 0 2, 5080) out "in1".toList := by
    refine ⟨⟨by unfold OneLine; decide, by decide⟩, inv_answerable, (first_iff _ _ _).mpr (by decide +kernel), by decide +kernel, hc, ?_, ?_⟩
    · intro e he
      rcases List.mem_append.mp (show e ∈ [.response ringing] ++ List.replicate 1 (.relay 0) from he) with he | he
      · exact hl e he
      · rw [(List.mem_replicate.mp he).2]; trivial
    · intro e he
      have : e ∈ [.response ringing] ++ List.replicate 1 (.relay 0) := he
      simp only [List.cons_append, List.nil_append, List.replicate, List.mem_cons, List.not_mem_nil, or_false] at this
      rcases this with rfl | rfl <;> trivial
  obtain ⟨rs', h1, h2⟩ := C113_delivered (cfg := me) (pre := []) (post := [.response ringing]) (a := "in1".toList) (n := 1)
    (arr := [ringing]) (upto := [ringing])
    ⟨by unfold OneLine; decide, by decide⟩ inv_answerable
    ((first_iff _ _ _).mpr (by decide +kernel)) hc hl
    ((arrived_iff _ _ _).mpr (by decide +kernel)) (.more (by decide) .nil) (by decide) ((answers_iff _ _ _).mpr rfl)
  have hr : rings.Ringing 0 := by
    refine ⟨[ringing], r0, rs', (arrived_iff _ _ _).mpr (by decide +kernel), by intro r hr; rw [List.mem_singleton.mp hr]; decide, ?_, (each_length h2).symm⟩
    rw [← h1, answers_iff]
    rfl
  have h3 : ∀ v, First rings.rq.headers "To" v → NoLowTag v := by
    intro v hv
    rw [first_iff] at hv
    have : rings.rq.headers.get "To".toList = some "<sip:bob@example.org>".toList := by decide +kernel
    rw [this] at hv
    cases hv
    exact (toTag_none _).mp (by decide +kernel)
  have h4 : ∀ v, First stop.headers "To" v → utf8Len v + 5 + utf8Len fr.reply ≤ 8192 := by
    intro v hv
    rw [first_iff] at hv
    have : stop.headers.get "To".toList = some "<sip:bob@example.org>".toList := by decide +kernel
    rw [this] at hv
    cases hv
    decide
  obtain ⟨k, t1, ok, s1, out, s2, r487, s3, s4, g1, _, g2, g3, g4, _⟩ := C116_cancelled hcalls hr h3 (q := stop) ((first_iff _ _ _).mpr (by decide +kernel))
    (f := fr) ⟨Priv.hinv_of (by decide) (by decide +kernel), by decide, by unfold OneLine; decide, h4⟩ 0 0 0
  exact ⟨k, t1, ok, s1, out, s2, r487, s3, s4, g1, g2, g3, g4⟩

theorem codes_ans (t : Nat) : ∀ os, codes t os = (ans t os).map (·.code)
  | [] => rfl
  | .reply t' r :: os => by
    simp only [codes, ans]
    split
    · rw [List.map_cons, codes_ans t os]
    · exact codes_ans t os
  | .tcp _ _ :: os => codes_ans t os
  | .udp _ _ :: os => codes_ans t os

theorem codes_over {cfg : Cfg} {t : Nat} {es : List Ev} (h : t < (run cfg init es).1.next ∧ ((run cfg init es).1.chans.get t).map (·.live) = some false)
    (more : List Ev) : codes t (run cfg init (es ++ more)).2 = codes t (run cfg init es).2 := by
  rw [run_append, codes_ans, codes_ans, ans_append, over_run more, List.append_nil]
  refine ⟨h.1, ?_⟩
  intro c hc
  have := h.2
  rw [hc] at this
  simpa using this

/-- **C116 (violated).** The parts of the CANCEL come before the turn of the relay task: the call is dropped with the 487 still in the channel,
the task finds no call, and whatever happens later the caller's INVITE gets no final answer. -/
theorem C116_no_final (es : List Ev) :
    codes 0 (run me init ([call, .response ringing, .relay 0, .cancel stop 0 fr, .cancelOn 0 0, .cancelOn 0 0, .relay 0] ++ es)).2 = [100, 180] ∧
    codes 1 (run me init ([call, .response ringing, .relay 0, .cancel stop 0 fr, .cancelOn 0 0, .cancelOn 0 0, .relay 0])).2 = [200] := by
  constructor
  · rw [codes_over (by decide +kernel)]
    decide +kernel
  · decide +kernel

/-- **C116 (violated).** The relay task has its turn before the CANCEL is passed on: the 487 drops the call, the CANCEL is then for no call, and
the callee is sent nothing and goes on ringing.  Its later answer is lost. -/
theorem C116_callee_rings_on :
    sent (run me init [call, .response ringing, .relay 0, .cancel stop 0 fr, .relay 0, .cancelOn 0 0, .cancelOn 0 0, .response ok, .relay 0]).2 =
      [(.invite, 5080)] ∧
    codes 0 (run me init [call, .response ringing, .relay 0, .cancel stop 0 fr, .relay 0, .cancelOn 0 0, .cancelOn 0 0, .response ok, .relay 0]).2 =
      [100, 180, 487] := by
  decide +kernel

/-- **C116 (violated).** The callee accepts while the CANCEL is under way: its 200 was passed to the caller, the CANCEL still goes out and the
call is dropped, so that the BYE of the caller is answered 481 and the callee, who has a call, is not told. -/
theorem C116_late_cancel :
    let es : List Ev := [call, .response ok, .relay 0, .cancel stop 0 fr, .cancelOn 0 0, .cancelOn 0 0,
      .bye (within .bye "in1" "<sip:alice@10.0.0.1>;tag=A" "<sip:bob@example.org>;tag=C" "8 BYE") 0 fr]
    codes 0 (run me init es).2 = [100, 200] ∧ codes 2 (run me init es).2 = [481] ∧ sent (run me init es).2 = [(.invite, 5080), (.cancel, 5080)] := by
  decide +kernel

/-- **C116 (violated).** A CANCEL is for a call by the Call-ID alone: one with another branch, another number and other tags ends it.  One for
no call at all is answered 200, not 481. -/
theorem C116_any_cancel :
    let eve : Request := within .cancel "in1" "<sip:eve@10.6.6.6>;tag=E" "<sip:bob@example.org>;tag=F" "99 CANCEL"
    (sent (run me init [call, .response ringing, .relay 0, .cancel eve 0 fr, .cancelOn 0 0, .relay 0, .cancelOn 0 0]).2 = [(.invite, 5080), (.cancel, 5080)] ∧
      codes 0 (run me init [call, .response ringing, .relay 0, .cancel eve 0 fr, .cancelOn 0 0, .relay 0, .cancelOn 0 0]).2 = [100, 180, 487]) ∧
    codes 0 (run me init [.cancel stop 0 fr]).2 = [200] := by
  decide +kernel

end Cases
end Siphon.Bridge
