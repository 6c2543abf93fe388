import Verif.Daemon.PropsCall
set_option linter.unusedSimpArgs false
set_option linter.unusedVariables false
/-!
# C118: how a call is answered
-/
namespace Siphon.Daemon
open HdrSpec TextSpec
open Siphon.Dlg.Spec
open Siphon.Uas.Spec
open Siphon.Bridge.Spec (Copies Lines Fits Ascii)
open Siphon.Bridge (putAll answerTo keepDialog bracket noSuchCall GoodName putAll_ok)
open Siphon.Dlg (Dialog DialogId Mgr Validator copyHeader dialogIdKey first_iff absent_iff)
open Siphon.Uas (createResponse createOk acceptInvite)
open Siphon.Sub (pushQuiet pushQuiet_getAll)
open Spec

/-! ## Accepting -/

theorem valid_done {rq : Request} (hf : Fine rq) {cid ft : Str} {n : Nat} {u : SipUri} (h : Invites rq cid ft n u) :
    Uas.validInvite rq = .done true := by
  have hm : rq.method.asStr = "INVITE".toList := by rw [h.method]; rfl
  obtain ⟨v, hv, hvt, _⟩ := h.caller
  cases hx : Uas.validInvite rq with
  | panic =>
    exfalso
    unfold Uas.validInvite at hx
    rw [if_neg (by simp [hm])] at hx
    split at hx
    · cases hx
    · rw [(first_iff _ _ _).mp hv] at hx
      simp only at hx
      split at hx
      · rename_i hp
        exact Dlg.extractTag_ascii (first_ascii hf hv) hp
      · cases hx
  | done b =>
    have := (Uas.validInvite_iff hm hx).mpr ⟨h.via, ⟨v, ft, hv, hvt⟩, h.to, ⟨_, h.callId⟩,
      (by obtain ⟨⟨w, _, _, hw, _⟩, _⟩ := h.cseq; exact ⟨w, hw⟩)⟩
    rw [this]

theorem further_ok (me : SipUri) (b : Option Str) :
    Headers.getAll ⟨(further me (.ok b)).map (fun p => ⟨p.1.toList, p.2⟩)⟩ "Session-Expires".toList = [] ∧
    Headers.getAll ⟨(further me (.ok b)).map (fun p => ⟨p.1.toList, p.2⟩)⟩ "Contact".toList = ["<".toList ++ me.raw ++ ">".toList] := by
  have e1 : eqIgnoreCase "Contact".toList "Session-Expires".toList = false := by decide
  have e2 : eqIgnoreCase "Content-Type".toList "Session-Expires".toList = false := by decide
  have e3 : eqIgnoreCase "Contact".toList "Contact".toList = true := by decide
  have e4 : eqIgnoreCase "Content-Type".toList "Contact".toList = false := by decide
  cases b <;>
    simp only [further, further.sdp, Headers.getAll, List.map_cons, List.map_nil, List.filter_cons, List.filter_nil, Header.nameEq, e1, e2, e3,
      e4, Bool.false_eq_true, if_false, if_true] <;> exact ⟨trivial, rfl⟩

/-- What the 200 is, and what it opens. -/
theorem accept_done {rq : Request} (hf : Fine rq) {cid ft : Str} {n : Nat} {u : SipUri} (h : Invites rq cid ft n u)
    (hto : ∃ v, First rq.headers "To" v ∧ NoTag v) {me : SipUri} (hme : GoodUri me) {tag : Str} (ht : GoodTag tag) {b : Option Str} (hb : ∀ s, b = some s → utf8Len s ≤ 1048576) (m : Mgr) :
    ∃ r d, acceptInvite ⟨me, me, m⟩ none true rq b tag = .done (.accepted r d, ⟨me, me, keepDialog m d⟩) ∧
      createOk me rq.headers tag b = .done r ∧ d.id = ⟨cid, tag, ft⟩ ∧ d.state = .confirmed ∧ d.localCSeq = 0 ∧ d.remoteCSeq = n ∧
      d.isUac = false ∧ d.localUri = me ∧ d.remoteUri = u ∧ TargetOf rq.headers u d.remoteTarget ∧ Routes rq.headers d.routeSet ∧
      d.sessionExpires = none ∧ d.lastAck = none := by
  have hvb : Uas.validBody b = true := by
    cases b with
    | none => rfl
    | some s => exact decide_eq_true (hb s rfl)
  cases hok : createOk me rq.headers tag b with
  | panic => exact absurd hok (Uas.ok_safe hf.safe ht.short hme.1 hme.2.1 hvb)
  | done r =>
    obtain ⟨ha, _⟩ := createOk_answers hok
    have hbuild : Uas.build me rq.headers tag (.ok b) = .done (some r) := by
      simp only [Uas.build, hvb, Bool.not_true, Bool.false_eq_true, if_false, hok]
      rfl
    have hse : ∀ k role, ¬ Asks r.headers k role := by
      rintro k role ⟨v, hv, _⟩
      obtain ⟨vs, hvs⟩ := hv
      rw [(Uas.C85_rest _ _ _ _ _ hbuild).2 _ _ (by
        intro m hm
        rw [sameName_iff]
        revert m
        decide)] at hvs
      rw [Dlg.selects_iff] at hvs
      rw [(further_ok me b).1] at hvs
      cases hvs
    obtain ⟨f, hfv, hft, hfu⟩ := h.caller
    obtain ⟨t, htv, htn⟩ := hto
    obtain ⟨t', ht1, ht2⟩ := ha.to (by decide) t htv
    obtain ⟨us, hus⟩ := h.routes
    obtain ⟨tg, htg, htgs⟩ := h.short.2
    have hnames : Names r.headers cid ft tag :=
      ⟨⟨[], ha.belongs.callId.1 cid h.callId⟩, ⟨f, ⟨[], ha.belongs.from.1 f hfv⟩, hft⟩, t', ⟨[], ht1⟩, ht2.new htn ht.text⟩
    let d0 : Dialog :=
      { id := ⟨cid, tag, ft⟩, state := .confirmed, localUri := me, remoteUri := u, remoteTarget := tg, routeSet := us, localCSeq := 0,
        remoteCSeq := n, lastAck := none, secure := me.sips || u.sips, sessionExpires := none, refresher := none, isUac := false }
    have hd := (Dlg.C90_uas rq r me u d0 (newUas_done hf (by decide) ha ht me u)).mpr
      ⟨hnames, ⟨.inr ⟨by rw [ha.status]; omega, by rw [ha.status]; omega, rfl⟩, htg, .inr ⟨hse, rfl, rfl⟩, rfl, rfl, ⟨hme.2.2, h.short.1, htgs⟩,
        by simp [d0], rfl⟩, hus, h.cseq.1, h.cseq.2.1, h.cseq.2.2, rfl, rfl⟩
    refine ⟨r, d0, ?_, rfl, rfl, rfl, rfl, rfl, rfl, rfl, rfl, htg, hus, rfl, rfl⟩
    · unfold acceptInvite
      rw [if_neg (by rw [h.method]; decide), valid_done hf h]
      simp only [Bool.not_true, Bool.false_eq_true, if_false, Uas.inviteAnswer, hbuild]
      unfold Uas.openDialog
      rw [(Sub.extractFrom_iff rq.headers u).mpr ⟨f, hfv, hfu⟩]
      simp only
      rw [hd]
      rfl

theorem described_body {i : Info} {rq : Request} {b : Option Str} (h : Described i rq.body b) : answerBody i rq.body = .body b := by
  unfold answerBody
  cases h with
  | answer h =>
    obtain ⟨hb, o, ho, ha⟩ := h
    rw [if_pos (by simpa using hb), ((offer_cases i rq.body hb).2 o).mpr ho]
    simp only
    rw [ha]
  | offer hb ho => rw [hb]; simp only [List.isEmpty_nil, Bool.not_true, Bool.false_eq_true, if_false]; rw [ho]
  | refused h =>
    obtain ⟨hb, o, ho, ha⟩ := h
    rw [if_pos (by simpa using hb), ((offer_cases i rq.body hb).2 o).mpr ho]
    simp only
    rw [ha]
  | unread h =>
    have hb : rq.body ≠ [] := fun e => h [] (by rw [e]; rfl)
    rw [if_pos (by simpa using hb), (offer_cases i rq.body hb).1.mpr h]

theorem ok_others {me : SipUri} {rq : Request} {tag : Str} {b : Option Str} {r : Response} (h : createOk me rq.headers tag b = .done r)
    (hb : Uas.validBody b = true) : Selects "Contact".toList r.headers.inner ["<".toList ++ me.raw ++ ">".toList] ∧ Absent r.headers "Session-Expires" ∧
      r.headers.inner.length ≤ rq.headers.inner.length + 3 := by
  have hbuild : Uas.build me rq.headers tag (.ok b) = .done (some r) := by
    simp only [Uas.build, hb, Bool.not_true, Bool.false_eq_true, if_false, h]
    rfl
  have rest := (Uas.C85_rest _ _ _ _ _ hbuild).2
  refine ⟨?_, ?_, ?_⟩
  · rw [rest _ _ (by intro m hm; rw [sameName_iff]; revert m; decide), Dlg.selects_iff, (further_ok me b).2]
  · unfold Absent
    rw [rest _ _ (by intro m hm; rw [sameName_iff]; revert m; decide), Dlg.selects_iff, (further_ok me b).1]
  · have := Uas.framed_length (Uas.framed_ok h).1 (Nat.le_refl _) (Uas.toOf_length _ _ _)
    have e : (Uas.extra me (.ok b)).length ≤ 2 := by cases b <;> simp [Uas.extra, further, further.sdp]
    omega

/-- C118: after the 180 the daemon answers the call with 200 OK.  The response has the session description and the daemon's Contact,
and the dialog it opens is stored, confirmed, under the Call-ID, the tag of the response and the tag of the caller.  With session
timers on, the response says `Session-Expires: 1800` and the timer of the dialog is started, the daemon not being the refresher. -/
theorem C118_answers (c : Cfg) (st : St) (n txn : Nat) (rq : Request) (i : Info) (me : SipUri) (key : Option Str) (cid ft : Str) (num : Nat)
    (u : SipUri) (b : Option Str) (hf : Fine rq) (ht : GoodTag i.tag) (hme : GoodUri me) (hw : st.tasks.get n = some (.ringing txn rq me key))
    (hi : Invites rq cid ft num u) (hto : ∃ v, First rq.headers "To" v ∧ NoTag v) (hb : Described i rq.body b) (hs : ∀ s, b = some s → utf8Len s ≤ 1048576)
    (hroom : st.dialogs.dialogs.length < 9999) :
    ∃ r d timers, (step c st (.turn n i)).2 = timers ++ [.final txn r] ∧ Answers rq 200 i.tag r ∧ r.body = bytes b ∧
      Selects "Contact".toList r.headers.inner ["<".toList ++ me.raw ++ ">".toList] ∧
      (step c st (.turn n i)).1.dialogs.get ⟨cid, i.tag, ft⟩ = some d ∧ d.id = ⟨cid, i.tag, ft⟩ ∧ d.state = .confirmed ∧ d.localCSeq = 0 ∧
      d.remoteCSeq = num ∧ d.isUac = false ∧ d.localUri = me ∧ d.remoteUri = u ∧ Routes rq.headers d.routeSet ∧
      (∀ j, j ≠ ⟨cid, i.tag, ft⟩ → (step c st (.turn n i)).1.dialogs.get j = st.dialogs.get j) ∧
      (step c st (.turn n i)).1.tasks.get n = some (.closing key) ∧
      (c.timers = false → timers = [] ∧ Absent r.headers "Session-Expires" ∧ d.sessionExpires = none ∧
        TargetOf rq.headers u d.remoteTarget) ∧
      (c.timers = true → timers = [.start ⟨cid, i.tag, ft⟩ 1800 false] ∧ Selects "Session-Expires".toList r.headers.inner ["1800".toList] ∧
        d.sessionExpires = some 1800 ∧
        ∀ w, AddrUri ("<".toList ++ me.raw ++ ">".toList) w → d.remoteTarget = w) := by
  have hgo : step c st (.turn n i) = afterRinging c { st with tasks := st.tasks.remove n } n txn rq i me key := by
    show turn c st n i = _
    unfold turn
    rw [hw]
  obtain ⟨r, d, hacc, hok, h1, h2, h3, h4, h5, h6, h7, h8, h9, h10, h11⟩ := accept_done hf hi hto hme ht hs st.dialogs
  obtain ⟨ha, hbody⟩ := createOk_answers hok
  have hvb : Uas.validBody b = true := by
    cases b with
    | none => rfl
    | some s => exact decide_eq_true (hs s rfl)
  obtain ⟨hcon, hse, hlen⟩ := ok_others hok hvb
  have hse' := (absent_iff _ _).mp hse
  have hroom' : (keepDialog st.dialogs d).dialogs.length < 10000 := by
    have : (keepDialog st.dialogs d).dialogs.length ≤ st.dialogs.dialogs.length + 1 := by
      rcases Bridge.keepDialog_cases st.dialogs d with e | ⟨_, e⟩
      · rw [e]; omega
      · rw [e]; exact Tbl.length_insert_le _ _ _
    omega
  rw [hgo]
  unfold afterRinging
  rw [described_body hb]
  simp only
  rw [hacc]
  simp only
  have kept : ∀ d' : Dialog, d'.id = d.id → d'.state = .confirmed → (keepDialog (keepDialog st.dialogs d) d').get d.id = some d' ∧
      ∀ j, j ≠ d.id → (keepDialog (keepDialog st.dialogs d) d').get j = st.dialogs.get j := by
    intro d' e hst
    obtain ⟨_, k1, k2⟩ := Dlg.C18_insert_works (keepDialog st.dialogs d) d' hroom' (by rw [hst]; intro hx; cases hx)
    refine ⟨by rw [← e]; exact k1, fun j hj => ?_⟩
    rw [show (keepDialog (keepDialog st.dialogs d) d').get j = _ from k2 j (by rw [e]; exact hj)]
    exact keepDialog_get _ _ hj
  cases hc : c.timers with
  | false =>
    obtain ⟨k1, k2⟩ := kept d rfl h2
    refine ⟨r, d, [], ?_, ha, hbody, hcon, ?_, h1, h2, h3, h4, h5, h6, h7, h9, ?_, ?_, ?_, ?_⟩
    · simp [timerOf, timerHeaders, hc]
    · simp only [Bool.false_eq_true, if_false]; rw [← h1]; exact k1
    · intro j hj
      simp only [Bool.false_eq_true, if_false]
      exact k2 j (by rw [h1]; exact hj)
    · exact Tbl.get_insert_self _ _ _
    · exact fun _ => ⟨rfl, hse, h10, h8⟩
    · intro hx; cases hx
  | true =>
    have few := hf.few
    have put : (putAll [("Session-Expires", "1800".toList), ("Supported", "timer".toList), ("Min-SE", "90".toList)] r.headers).inner =
        r.headers.inner ++ Bridge.mk [("Session-Expires", "1800".toList), ("Supported", "timer".toList), ("Min-SE", "90".toList)] := by
      refine putAll_ok _ _ (by simp only [List.length_cons, List.length_nil]; omega) ?_
      intro p hp
      simp only [List.mem_cons, List.not_mem_nil, or_false] at hp
      rcases hp with rfl | rfl | rfl <;> refine ⟨goodNames _ (by simp), ?_⟩ <;> unfold Fits OneLine <;> decide
    have getSE : (putAll [("Session-Expires", "1800".toList), ("Supported", "timer".toList), ("Min-SE", "90".toList)] r.headers).getAll
        "Session-Expires".toList = ["1800".toList] := by
      have h0 : r.headers.getAll "Session-Expires".toList = [] := ((Dlg.selects_iff _ _ _).mp hse).symm
      have e1 : eqIgnoreCase "Session-Expires".toList "Session-Expires".toList = true := by decide
      have e2 : eqIgnoreCase "Supported".toList "Session-Expires".toList = false := by decide
      have e3 : eqIgnoreCase "Min-SE".toList "Session-Expires".toList = false := by decide
      unfold Headers.getAll at h0 ⊢
      rw [put, List.filter_append, List.map_append, h0]
      simp only [Bridge.mk, List.map_cons, List.map_nil, List.filter_cons, List.filter_nil, Header.nameEq, e1, e2, e3, if_true,
        Bool.false_eq_true, if_false, List.nil_append]
    generalize hr' : ({ r with headers := putAll [("Session-Expires", "1800".toList), ("Supported", "timer".toList), ("Min-SE", "90".toList)] r.headers } : Response) = r'
    have hth : timerHeaders c r = r' := by
      unfold timerHeaders
      rw [hc, hse', ← hr']
      simp
    have ha' : Answers rq 200 i.tag r' := by
      rw [← hr']
      refine answers_put ha _ ?_
      intro p hp n hn
      simp only [List.mem_cons, List.not_mem_nil, or_false, copied] at hp hn
      rcases hp with rfl | rfl | rfl <;> rcases hn with rfl | rfl | rfl | rfl | rfl | rfl <;> simp only <;> decide
    have hcon' : r'.headers.getAll "Contact".toList = ["<".toList ++ me.raw ++ ">".toList] := by
      rw [← hr']
      simp only
      rw [putAll_getAll _ _ "Contact" (by
        intro p hp
        simp only [List.mem_cons, List.not_mem_nil, or_false] at hp
        rcases hp with rfl | rfl | rfl <;> simp only <;> decide)]
      exact ((Dlg.selects_iff _ _ _).mp hcon).symm
    have hse2 : Selects "Session-Expires".toList r'.headers.inner ["1800".toList] := by
      rw [Dlg.selects_iff, ← hr']
      exact getSE.symm
    have hask : Asks r'.headers 1800 none := ⟨_, ⟨[], hse2⟩, (Dlg.C22_read _ _ _).mp (by decide +kernel)⟩
    obtain ⟨sc, tgt, rc, la, tm, _, _, rs⟩ := Dlg.C91_response d r'
    obtain ⟨t1, t2⟩ := tm _ _ hask
    have ids : (d.updateFromResponse r').id = d.id := sc.id
    have hst : (d.updateFromResponse r').state = .confirmed := by
      rw [Dlg.C16_confirmed_by_2xx, h2]
      simp
    obtain ⟨k1, k2⟩ := kept (d.updateFromResponse r') ids hst
    refine ⟨r', d.updateFromResponse r', [.start ⟨cid, i.tag, ft⟩ 1800 false], ?_, ha', ?_, ?_, ?_, ?_, hst, ?_, ?_, ?_, ?_, ?_, ?_, ?_, ?_, ?_, ?_⟩
    · simp [timerOf, hth, hc, t1, ids, h1, t2, Dlg.siphondRefreshes]
    · rw [← hr']; exact hbody
    · rw [Dlg.selects_iff]; exact hcon'.symm
    · simp only [if_true, hth]; rw [← h1]; exact k1
    · rw [ids, h1]
    · rw [← h3]; exact sc.localCSeq
    · rw [rc, h4]
    · rw [← h5]; exact sc.isUac
    · rw [← h6]; exact sc.localUri
    · rw [← h7]; exact sc.remoteUri
    · rw [rs (.inl (by rw [h2]; simp))]; exact h9
    · intro j hj
      simp only [if_true, hth]
      exact k2 j (by rw [h1]; exact hj)
    · exact Tbl.get_insert_self _ _ _
    · intro hx; cases hx
    · refine fun _ => ⟨rfl, hse2, t1, fun w hw => ?_⟩
      rcases tgt with ⟨v, ⟨vs, hv⟩, hvw⟩ | ⟨hn, _⟩
      · rw [Dlg.selects_iff, hcon'] at hv
        cases hv
        rw [Dlg.addrUri_iff] at hvw hw
        rw [hw] at hvw
        cases hvw
        rfl
      · exact absurd ⟨_, ⟨[], by rw [Dlg.selects_iff]; exact hcon'.symm⟩, hw⟩ (hn w)

/-- C118: an INVITE from which no dialog can be made, or for which the session description is too long, is declined. -/
theorem C118_declines (c : Cfg) (st : St) (n txn : Nat) (rq : Request) (i : Info) (me : SipUri) (key : Option Str) (b : Option Str)
    (hf : Fine rq) (ht : GoodTag i.tag) (hme : GoodUri me) (hw : st.tasks.get n = some (.ringing txn rq me key)) (hm : rq.method = .invite)
    (hi : (∀ cid ft num u, ¬ Invites rq cid ft num u) ∨ ∃ s, b = some s ∧ 1048576 < utf8Len s) (hb : Described i rq.body b) :
    ∃ r, (step c st (.turn n i)).2 = [.final txn r] ∧ Answers rq 603 i.tag r ∧ r.body = [] ∧
      (step c st (.turn n i)).1.dialogs = st.dialogs ∧ (step c st (.turn n i)).1.tasks.get n = some (.closing key) := by
  have hgo : step c st (.turn n i) = afterRinging c { st with tasks := st.tasks.remove n } n txn rq i me key := by
    show turn c st n i = _
    unfold turn
    rw [hw]
  rw [hgo]
  unfold afterRinging
  rw [described_body hb]
  simp only
  obtain ⟨r, p1, p2, p3⟩ := plain_done (reason := "Decline") hf ht (code := 603) (by omega) (by unfold Uas.ReasonOk; decide)
  cases hacc : acceptInvite ⟨me, me, st.dialogs⟩ none true rq b i.tag with
  | panic =>
    exfalso
    unfold acceptInvite at hacc
    split at hacc
    · cases hacc
    · split at hacc
      · rename_i hp
        unfold Uas.validInvite at hp
        rw [if_neg (by rw [hm]; decide)] at hp
        split at hp
        · cases hp
        · split at hp
          · cases hp
          · rename_i v hv
            split at hp
            · rename_i hpp
              exact Dlg.extractTag_ascii (first_ascii hf ((first_iff _ _ _).mpr hv)) hpp
            · cases hp
      · cases hacc
      · simp only [Bool.not_true, Bool.false_eq_true, if_false, Uas.inviteAnswer, Uas.build] at hacc
        by_cases hvb : Uas.validBody b = true
        · cases hok : createOk me rq.headers i.tag b with
          | panic => exact Uas.ok_safe hf.safe ht.short hme.1 hme.2.1 hvb hok
          | done r =>
            simp only [hvb, Bool.not_true, Bool.false_eq_true, if_false, hok] at hacc
            change Uas.openDialog _ _ _ = _ at hacc
            unfold Uas.openDialog at hacc
            split at hacc
            · cases hacc
            · split at hacc
              · rename_i hp; exact newUas_done hf (by decide) (createOk_answers hok).1 ht _ _ hp
              · cases hacc
              · cases hacc
        · rw [Bool.not_eq_true] at hvb
          simp [hvb] at hacc
  | done p =>
    obtain ⟨o, s⟩ := p
    rcases accept_cases hacc with ⟨r', d, e, _⟩ | ⟨h1, h2⟩
    · exfalso
      subst e
      obtain ⟨g1, _, g2, g3, _, g4⟩ := Uas.accept_inv hacc
      have hvb : Uas.validBody b = true := by
        cases hv : Uas.validBody b with
        | true => rfl
        | false => simp [Uas.inviteAnswer, Uas.build, hv] at g3
      rcases hi with hi | ⟨s, rfl, hs⟩
      · obtain ⟨c1, c2, c3, c4, c5⟩ := (Uas.validInvite_iff g1 g2).mp rfl
        obtain ⟨f, ft, hfv, hft⟩ := c2
        have hok := (accepted_answers hacc).1
        unfold Uas.openDialog at g4
        split at g4
        · cases g4
        · rename_i u hu
          obtain ⟨f', hf', hfu⟩ := (Sub.extractFrom_iff _ _).mp hu
          have := Dlg.first_unique hfv hf'
          subst this
          split at g4
          · cases g4
          · cases g4
          · rename_i d' hd
            obtain ⟨_, k2, k3, k4, k5, k6, _⟩ := (Dlg.C90_uas rq _ _ _ _ (by rw [hd]; simp)).mp hd
            obtain ⟨cid, hcid⟩ := c4
            exact hi cid ft _ u ⟨hm, c1, hcid, ⟨f, hfv, hft, hfu⟩, c3, ⟨k4, k5, k6⟩, ⟨k2.short.2.1, _, k2.target, k2.short.2.2⟩, _, k3⟩
      · have : ¬ utf8Len s ≤ 1048576 := by omega
        exact this (of_decide_eq_true hvb)
    · refine ⟨r, ?_, p2, p3, ?_, ?_⟩ <;>
        · cases o with
          | accepted r d => exact absurd rfl (h1 r d)
          | error => simp only [p1, finalThenClose, h2]; try exact Tbl.get_insert_self _ _ _
          | tooSmall r => simp only [p1, finalThenClose, h2]; try exact Tbl.get_insert_self _ _ _

/-- C118: if the INVITE has no body and the configuration has no session description to offer, the answer is 488. -/
theorem C118_no_offer (c : Cfg) (st : St) (n txn : Nat) (rq : Request) (i : Info) (me : SipUri) (key : Option Str) (hf : Fine rq)
    (hw : st.tasks.get n = some (.ringing txn rq me key)) (hb : rq.body = []) (ho : i.offer = none) :
    ∃ r, (step c st (.turn n i)).2 = [.final txn r] ∧ BareAnswer rq 488 r ∧ (step c st (.turn n i)).1.dialogs = st.dialogs ∧
      (step c st (.turn n i)).1.tasks.get n = some (.closing key) := by
  have hgo : step c st (.turn n i) = afterRinging c { st with tasks := st.tasks.remove n } n txn rq i me key := by
    show turn c st n i = _
    unfold turn
    rw [hw]
  rw [hgo]
  unfold afterRinging answerBody
  rw [hb, ho]
  simp only [List.isEmpty_nil, Bool.not_true, Bool.false_eq_true, if_false]
  exact ⟨_, rfl, bare_answers hf 488 _, rfl, Tbl.get_insert_self _ _ _⟩

/-- C118: a whole call.  Whatever else happens in between, the caller of a new call gets 100, 180 and 200, and the dialog is there. -/
theorem C118_call (c : Cfg) (es mid₁ mid₂ : List Ev) (txn : Nat) (rq : Request) (i₀ i₁ i₂ : Info) (me : SipUri) (cid ft : Str) (num n : Nat)
    (u : SipUri) (b : Option Str) (hf : Fine rq) (ht₀ : GoodTag i₀.tag) (ht₁ : GoodTag i₁.tag) (ht₂ : GoodTag i₂.tag) (hme : GoodUri me)
    (hloc : SipUri.parse c.localUri = some me) (hcalls : c.calls = true) (hauto : c.autoAccept = true) (hh : Hops rq.headers)
    (hg : i₀.gate = .pass) (hr : Absent rq.headers "Replaces") (hi : Invites rq cid ft num u)
    (hto : ∃ v, First rq.headers "To" v ∧ NoTag v) (hok : rq.body = [] ∨ NoText rq.body ∨ ∃ a, GoodOffer i₁ rq.body a)
    (hb : Described i₂ rq.body b) (hs : ∀ s, b = some s → utf8Len s ≤ 1048576) (hn : (run c init es).1.next = n)
    (hmid : ∀ e ∈ mid₁ ++ mid₂, ∀ i, e ≠ .turn n i)
    (hroom : (run c init (es ++ .request txn rq i₀ :: mid₁ ++ .turn n i₁ :: mid₂)).1.dialogs.dialogs.length < 9999) :
    ∃ r₀ r₁ more r₂ timers d,
      (step c (run c init es).1 (.request txn rq i₀)).2 = [.provisional txn r₀] ∧ Answers rq 100 i₀.tag r₀ ∧
      (step c (run c init (es ++ .request txn rq i₀ :: mid₁)).1 (.turn n i₁)).2 = .provisional txn r₁ :: more ∧ Answers rq 180 i₁.tag r₁ ∧
      (step c (run c init (es ++ .request txn rq i₀ :: mid₁ ++ .turn n i₁ :: mid₂)).1 (.turn n i₂)).2 = timers ++ [.final txn r₂] ∧
      Answers rq 200 i₂.tag r₂ ∧ r₂.body = bytes b ∧
      (run c init (es ++ .request txn rq i₀ :: mid₁ ++ .turn n i₁ :: mid₂ ++ [.turn n i₂])).1.dialogs.get ⟨cid, i₂.tag, ft⟩ = some d ∧
      d.state = .confirmed ∧ d.remoteCSeq = num := by
  obtain ⟨tv, htv, htn⟩ := hto
  have hnone : ∀ (s : St) j, Names rq.headers j.callId j.remoteTag j.localTag → s.dialogs.get j = none := by
    rintro s j ⟨_, _, w, hw, hwt⟩
    have := Dlg.first_unique hw htv
    subst this
    exact absurd hwt (Dlg.noTag_not htn)
  obtain ⟨r₀, a1, a2, _⟩ := (C118_greeted c (run c init es).1 txn rq i₀ me hf ht₀ hi.method hcalls hh hg (hnone _) hr hloc).2 hauto
  have t1 : (run c init (es ++ .request txn rq i₀ :: mid₁)).1.tasks.get n = some (.trying txn rq me) := by
    have e : es ++ .request txn rq i₀ :: mid₁ = (es ++ [.request txn rq i₀]) ++ mid₁ := by simp
    rw [e]
    refine C118_waits c _ _ n _ ?_ (fun e he => hmid e (by simp [he]))
    rw [run_snoc, a1]
    simp only
    rw [hn]
    exact Tbl.get_insert_self _ _ _
  obtain ⟨r₁, more, key, b1, b2, _, _, b3⟩ := (C118_rings c _ n txn rq i₁ me hf ht₁ t1).2 hok
  have t2 : (run c init (es ++ .request txn rq i₀ :: mid₁ ++ .turn n i₁ :: mid₂)).1.tasks.get n = some (.ringing txn rq me key) := by
    have e : es ++ .request txn rq i₀ :: mid₁ ++ .turn n i₁ :: mid₂ = (es ++ .request txn rq i₀ :: mid₁ ++ [.turn n i₁]) ++ mid₂ := by simp
    rw [e]
    refine C118_waits c _ _ n _ ?_ (fun e he => hmid e (by simp [he]))
    rw [run_snoc]
    exact b3
  obtain ⟨r₂, d, timers, d1, d2, d3, _, d4, _, d5, _, d6, _⟩ :=
    C118_answers c _ n txn rq i₂ me key cid ft num u b hf ht₂ hme t2 hi ⟨tv, htv, htn⟩ hb hs hroom
  refine ⟨r₀, r₁, more, r₂, timers, d, by rw [a1], a2, b1, b2, d1, d2, d3, ?_, d5, d6⟩
  rw [run_snoc]
  exact d4

end Siphon.Daemon
