import Verif.Daemon.PropsAnswer
import Verif.Sub.PropsReplaces
import Verif.Dialog.PropsReliable
set_option linter.unusedSimpArgs false
set_option linter.unusedVariables false
/-!
# C118: the reliable 180
-/
namespace Siphon.Daemon
open HdrSpec TextSpec
open Siphon.Dlg.Spec
open Siphon.Uas.Spec
open Siphon.Bridge.Spec (Copies Lines Fits Ascii)
open Siphon.Bridge (putAll answerTo keepDialog bracket noSuchCall GoodName putAll_ok)
open Siphon.Dlg (Dialog DialogId Mgr Validator copyHeader dialogIdKey first_iff absent_iff)
open Siphon.Uas (createResponse createOk acceptInvite)
open Siphon.Sub (pushQuiet pushQuiet_getAll)
open Spec

/-- The first Supported header has `100rel` in it. -/
def Spec.Takes100rel (hs : Headers) : Prop := ∃ v a b, First hs "Supported" v ∧ v = a ++ "100rel".toList ++ b

theorem wants_iff (c : Cfg) (rq : Request) : wantsReliable c rq = true ↔ c.prack = true ∧ Takes100rel rq.headers := by
  unfold wantsReliable Takes100rel
  rw [Bool.and_eq_true]
  cases hg : rq.headers.get "Supported".toList with
  | none =>
    simp only [Bool.false_eq_true, and_false, false_iff]
    rintro ⟨_, v, a, b, hv, _⟩
    rw [first_iff, hg] at hv
    cases hv
  | some w =>
    simp only [Sub.hasText_iff]
    constructor
    · rintro ⟨h1, a, b, e⟩
      exact ⟨h1, w, a, b, (first_iff _ _ _).2 hg, e⟩
    · rintro ⟨h1, v, a, b, hv, e⟩
      rw [first_iff, hg] at hv
      cases hv
      exact ⟨h1, a, b, e⟩

/-- The turn after the 100 rings, if the session description can be answered. -/
theorem rings_step {c : Cfg} {st : St} {n txn : Nat} {rq : Request} {i : Info} {me : SipUri}
    (hw : st.tasks.get n = some (.trying txn rq me)) (h : rq.body = [] ∨ NoText rq.body ∨ (∃ a, GoodOffer i rq.body a)) :
    step c st (.turn n i) = ring c (keepWait { st with tasks := st.tasks.remove n } (waitOf txn i.now rq.headers)) n txn rq i me
      ((waitOf txn i.now rq.headers).map (·.1)) := by
  have hgo : step c st (.turn n i) = afterTrying c { st with tasks := st.tasks.remove n } n txn rq i me := by
    show turn c st n i = _
    unfold turn
    rw [hw]
  rw [hgo]
  unfold afterTrying
  simp only
  by_cases hb : rq.body = []
  · rw [if_pos (by simp [hb])]
  · rw [if_neg (by simpa using hb)]
    rcases h with h | h | ⟨a, _, o, ho, ha⟩
    · exact absurd h hb
    · rw [(offer_cases i rq.body hb).1.mpr h]
    · rw [((offer_cases i rq.body hb).2 o).mpr ho]
      simp only
      rw [ha]

theorem plain_others {rq : Request} {i : Info} {code : Nat} {reason : String} {r : Response} (h : plain rq i code reason = .done r)
    (n : Str) (hn : ∀ m ∈ usual, ¬ SameName n m.toList) : Selects n r.headers.inner [] := by
  have hb : ∀ u : SipUri, Uas.build u rq.headers i.tag (.plain code reason.toList) = .done (some r) := by
    intro u
    show ((do let r ← createResponse rq.headers code reason.toList i.tag; .done (some r)) : Run (Option Response)) = _
    unfold plain at h
    rw [h]
    rfl
  have := ((Uas.C85_rest ⟨[], false, none, [], none, [], []⟩ rq.headers i.tag _ r (hb _)).2 n [] hn).2
  exact this (by rw [Dlg.selects_iff]; rfl)

theorem unusualRSeq : ∀ m ∈ usual, ¬ SameName "RSeq".toList m.toList := by intro m hm; rw [sameName_iff]; revert m; decide
theorem unusualRequire : ∀ m ∈ usual, ¬ SameName "Require".toList m.toList := by intro m hm; rw [sameName_iff]; revert m; decide
theorem unusualContact : ∀ m ∈ usual, ¬ SameName "Contact".toList m.toList := by intro m hm; rw [sameName_iff]; revert m; decide

theorem retag_rest (st : St) (k : Option Str) (r : Response) :
    (retag st k r).validator = st.validator := by
  unfold retag; split <;> rfl

theorem keepWait_rest (st : St) (w : Option (Str × Wait)) : (keepWait st w).validator = st.validator := by
  unfold keepWait; split <;> rfl

/-- C118: if reliable responses are off, or the caller does not list `100rel`, the 180 has no number, is sent once, and leaves the
dialogs, the numbers and the responses to be acknowledged as they are. -/
theorem C118_unreliable (c : Cfg) (st : St) (n txn : Nat) (rq : Request) (i : Info) (me : SipUri) (hf : Fine rq) (ht : GoodTag i.tag)
    (hw : st.tasks.get n = some (.trying txn rq me)) (hb : rq.body = [] ∨ NoText rq.body ∨ (∃ a, GoodOffer i rq.body a))
    (hno : c.prack = false ∨ ¬ Takes100rel rq.headers) :
    ∃ r, (step c st (.turn n i)).2 = [.provisional txn r] ∧ Answers rq 180 i.tag r ∧ Absent r.headers "RSeq" ∧ Absent r.headers "Require" ∧
      (step c st (.turn n i)).1.dialogs = st.dialogs ∧ (step c st (.turn n i)).1.rseqs = st.rseqs ∧
      (step c st (.turn n i)).1.validator = st.validator := by
  rw [rings_step hw hb]
  have hwr : wantsReliable c rq = false := by
    cases h : wantsReliable c rq with
    | false => rfl
    | true =>
      obtain ⟨h1, h2⟩ := (wants_iff c rq).1 h
      rcases hno with h | h
      · rw [h1] at h; cases h
      · exact absurd h2 h
  obtain ⟨r, h1, h2, h3⟩ := plain_done (reason := "Ringing") hf ht (code := 180) (by omega) (by unfold Uas.ReasonOk; decide)
  unfold ring
  rw [h1, hwr]
  simp only [Bool.false_eq_true, if_false]
  have k := keepWait_tasks { st with tasks := st.tasks.remove n } (waitOf txn i.now rq.headers)
  refine ⟨r, rfl, h2, plain_others h1 _ (by intro m hm; rw [sameName_iff]; revert m; decide),
    plain_others h1 _ (by intro m hm; rw [sameName_iff]; revert m; decide), ?_, ?_, ?_⟩
  · rw [(retag_tasks _ _ _).2.2.1, k.2.2.1]
  · rw [(retag_tasks _ _ _).2.2.2, k.2.2.2]
  · rw [retag_rest, keepWait_rest]

/-- C118: if reliable responses are on and the caller lists `100rel`, the 180 says `Require: 100rel` and has the daemon's Contact and a number: one more
than the last one in this dialog, or, if there was none, one from 1 to 2³¹ - 1.  It is repeated under the key of the dialog and that
number until it is acknowledged; what is noted for the acknowledgement is that number, the CSeq number of the INVITE and its method.
The dialog it opens is stored, in the early state, and no other dialog changes. -/
theorem C118_reliable (c : Cfg) (st : St) (n txn : Nat) (rq : Request) (i : Info) (me : SipUri) (cid ft : Str) (num : Nat)
    (u : SipUri) (hf : Fine rq) (ht : GoodTag i.tag) (hme : GoodUri me) (hloc : OneLine c.localUri ∧ utf8Len c.localUri ≤ 8000)
    (hw : st.tasks.get n = some (.trying txn rq me)) (hb : rq.body = [] ∨ NoText rq.body ∨ (∃ a, GoodOffer i rq.body a))
    (hi : Invites rq cid ft num u) (hto : ∃ v, First rq.headers "To" v ∧ NoTag v)
    (hcaller : ∃ v, First rq.headers "From" v ∧ Sub.Spec.Target v u) (hroom : st.dialogs.dialogs.length < 10000)
    (hearly : (st.dialogs.dialogs.filter (fun e => e.2.state == .early && e.1.callId == cid && e.1 != ⟨cid, i.tag, ft⟩)).length < 100) (hnum : ∀ k, st.rseqs.get ⟨cid, i.tag, ft⟩ = some k → k < 2 ^ 32 - 1)
    (hp : c.prack = true) (hs : Takes100rel rq.headers) :
    ∃ r d m, (step c st (.turn n i)).2 = [.provisional txn r, .repeating txn r (dialogIdKey ⟨cid, i.tag, ft⟩) m] ∧
      Answers rq 180 i.tag r ∧ r.body = [] ∧
      (∃ w, Selects "RSeq".toList r.headers.inner [w] ∧ Decimal w m) ∧
      Selects "Require".toList r.headers.inner ["100rel".toList] ∧
      Selects "Contact".toList r.headers.inner ["<".toList ++ c.localUri ++ ">".toList] ∧
      (∀ k, st.rseqs.get ⟨cid, i.tag, ft⟩ = some k → m = k + 1) ∧
      (st.rseqs.get ⟨cid, i.tag, ft⟩ = none → 1 ≤ m ∧ m ≤ 2 ^ 31 - 1) ∧
      (step c st (.turn n i)).1.rseqs.get ⟨cid, i.tag, ft⟩ = some m ∧
      (step c st (.turn n i)).1.validator = st.validator.register (dialogIdKey ⟨cid, i.tag, ft⟩) i.now m num .invite 180 ∧
      (step c st (.turn n i)).1.dialogs.get ⟨cid, i.tag, ft⟩ = some d ∧ d.id = ⟨cid, i.tag, ft⟩ ∧ d.state = .early ∧ d.localCSeq = 0 ∧
      d.remoteCSeq = num ∧ d.isUac = false ∧ d.localUri = me ∧ d.remoteUri = u ∧ Routes rq.headers d.routeSet ∧
      TargetOf rq.headers u d.remoteTarget ∧
      ∀ j, j ≠ ⟨cid, i.tag, ft⟩ → (step c st (.turn n i)).1.dialogs.get j = st.dialogs.get j := by
  rw [rings_step hw hb]
  obtain ⟨r, h1, ha, h3⟩ := plain_done (reason := "Ringing") hf ht (code := 180) (by omega) (by unfold Uas.ReasonOk; decide)
  have hse : ∀ k role, ¬ Asks r.headers k role := by
    rintro k role ⟨v, ⟨vs, hv⟩, _⟩
    have := plain_others h1 "Session-Expires".toList (by intro m hm; rw [sameName_iff]; revert m; decide)
    rw [Dlg.selects_iff] at this hv
    rw [← this] at hv
    cases hv
  obtain ⟨f, hfv, hft, hfu⟩ := hi.caller
  obtain ⟨t, htv, htn⟩ := hto
  obtain ⟨t', ht1, ht2⟩ := ha.to (by decide) t htv
  obtain ⟨us, hus⟩ := hi.routes
  obtain ⟨tg, htg, htgs⟩ := hi.short.2
  have hnames : Names r.headers cid ft i.tag :=
    ⟨⟨[], ha.belongs.callId.1 cid hi.callId⟩, ⟨f, ⟨[], ha.belongs.from.1 f hfv⟩, hft⟩, t', ⟨[], ht1⟩, ht2.new htn ht.text⟩
  let d0 : Dialog :=
    { id := ⟨cid, i.tag, ft⟩, state := .early, localUri := me, remoteUri := u, remoteTarget := tg, routeSet := us, localCSeq := 0,
      remoteCSeq := num, lastAck := none, secure := me.sips || u.sips, sessionExpires := none, refresher := none, isUac := false }
  have hd := (Dlg.C90_uas rq r me u d0 (newUas_done hf (by decide) ha ht me u)).mpr
    ⟨hnames, ⟨.inl ⟨by rw [ha.status]; omega, by rw [ha.status]; omega, rfl⟩, htg, .inr ⟨hse, rfl, rfl⟩, rfl, rfl, ⟨hme.2.2, hi.short.1, htgs⟩,
      by simp [d0], rfl⟩, hus, hi.cseq.1, hi.cseq.2.1, hi.cseq.2.2, rfl, rfl⟩
  have hfrom : (rq.headers.get "From".toList).bind Sub.parseNameAddr = some u := by
    obtain ⟨v, hv, hvt⟩ := hcaller
    rw [(first_iff _ _ _).1 hv]
    exact (Sub.target_iff v u).1 hvt
  obtain ⟨cv, cw, cws, hcv, hcw, hcn, hc32⟩ := hi.cseq.1
  have hcv' := (first_iff _ _ _).1 hcv
  have hcw' : splitWhitespace cv = cw :: cws := (words_iff _ _).1 hcw
  have hcd : parseDec MAX_U32 cw = some num := (parseDec_iff _ _ _).2 ⟨hcn, by unfold MAX_U32; omega⟩
  generalize hst1 : keepWait { st with tasks := st.tasks.remove n } (waitOf txn i.now rq.headers) = st1
  have k1 : st1.dialogs = st.dialogs := by rw [← hst1]; exact (keepWait_tasks _ _).2.2.1
  have k2 : st1.rseqs = st.rseqs := by rw [← hst1]; exact (keepWait_tasks _ _).2.2.2
  have k3 : st1.validator = st.validator := by rw [← hst1]; exact keepWait_rest _ _
  generalize hm : (Dlg.nextRSeq st.rseqs ⟨cid, i.tag, ft⟩ i.rnd).1 = m
  have hmn : ∀ k, st.rseqs.get ⟨cid, i.tag, ft⟩ = some k → m = k + 1 := by
    intro k hk
    have := hnum k hk
    rw [← hm]
    unfold Dlg.nextRSeq
    rw [hk]
    simp only
    rw [if_pos (by unfold MAX_U32; omega)]
  have hm0 : st.rseqs.get ⟨cid, i.tag, ft⟩ = none → 1 ≤ m ∧ m ≤ 2 ^ 31 - 1 := by
    intro hk
    rw [← hm]
    exact Dlg.C21_first _ _ _ hk
  have hmm : m < 2 ^ 32 := by
    cases hk : st.rseqs.get ⟨cid, i.tag, ft⟩ with
    | none => have := (hm0 hk).2; omega
    | some k => have := hmn k hk; have := hnum k hk; omega
  have hm2 : (Dlg.nextRSeq st.rseqs ⟨cid, i.tag, ft⟩ i.rnd).2.get ⟨cid, i.tag, ft⟩ = some m := by
    rw [← hm]
    unfold Dlg.nextRSeq
    exact Tbl.get_insert_self _ _ _
  have hlen : r.headers.inner.length ≤ rq.headers.inner.length + 1 := by
    have := Uas.framed_length (Uas.framed_create h1).1 (Nat.le_refl _) (Uas.toOf_length _ _ _)
    simpa using this
  have few := hf.few
  have put : (putAll [("RSeq", showNat m), ("Require", "100rel".toList), ("Contact", bracket c.localUri)] r.headers).inner =
      r.headers.inner ++ Bridge.mk [("RSeq", showNat m), ("Require", "100rel".toList), ("Contact", bracket c.localUri)] := by
    refine putAll_ok _ _ (by simp only [List.length_cons, List.length_nil]; omega) ?_
    intro p hp
    simp only [List.mem_cons, List.not_mem_nil, or_false] at hp
    rcases hp with rfl | rfl | rfl
    · exact ⟨goodNames _ (by simp), Uas.showNat_short m (by omega)⟩
    · refine ⟨goodNames _ (by simp), ?_⟩
      unfold Fits OneLine
      decide
    · refine ⟨goodNames _ (by simp), ?_⟩
      obtain ⟨l1, l2⟩ := hloc
      refine ⟨Uas.oneLine_append (a := '<' :: c.localUri) (b := ">".toList) (Uas.oneLine_append (a := "<".toList) ?_ l1) ?_, ?_⟩
      · unfold OneLine; decide
      · unfold OneLine; decide
      · have : utf8Len (bracket c.localUri) = utf8Len c.localUri + 2 := by
          show utf8Len ("<".toList ++ c.localUri ++ ">".toList) = _
          rw [Dlg.utf8Len_append, Dlg.utf8Len_append, show utf8Len "<".toList = 1 by decide, show utf8Len ">".toList = 1 by decide]
          omega
        show utf8Len (bracket c.localUri) ≤ 8192
        omega
  generalize hr' : ({ r with headers := putAll [("RSeq", showNat m), ("Require", "100rel".toList), ("Contact", bracket c.localUri)] r.headers } : Response) = r'
  have hrel : reliable c st1 rq i me r = some ({ st1 with dialogs := keepDialog st1.dialogs d0, rseqs := (Dlg.nextRSeq st.rseqs ⟨cid, i.tag, ft⟩ i.rnd).2, validator := st.validator.register (dialogIdKey ⟨cid, i.tag, ft⟩) i.now m num .invite 180 }, r', some (dialogIdKey ⟨cid, i.tag, ft⟩, m)) := by
    unfold reliable
    rw [hfrom]
    simp only
    rw [hd]
    simp only [d0]
    rw [hcv', k2, k3, hm, hi.method, hr']
    simp only [Option.bind_some]
    rw [hcw']
    simp only
    rw [hcd]
  have ha' : Answers rq 180 i.tag r' := by
    rw [← hr']
    refine answers_put ha _ ?_
    intro p hp n hn
    simp only [List.mem_cons, List.not_mem_nil, or_false, copied] at hp hn
    rcases hp with rfl | rfl | rfl <;> rcases hn with rfl | rfl | rfl | rfl | rfl | rfl <;> simp only <;> decide
  have others : ∀ nm : Str, (∀ m ∈ usual, ¬ SameName nm m.toList) → r'.headers.getAll nm =
      Headers.getAll ⟨Bridge.mk [("RSeq", showNat m), ("Require", "100rel".toList), ("Contact", bracket c.localUri)]⟩ nm := by
    intro nm hnm
    have h0 := (Dlg.selects_iff _ _ _).mp (plain_others h1 nm hnm)
    rw [← hr']
    unfold Headers.getAll at h0 ⊢
    simp only
    rw [put, List.filter_append, List.map_append, ← h0, List.nil_append]
  have e1 : eqIgnoreCase "RSeq".toList "RSeq".toList = true := by decide
  have e2 : eqIgnoreCase "Require".toList "RSeq".toList = false := by decide
  have e3 : eqIgnoreCase "Contact".toList "RSeq".toList = false := by decide
  have e4 : eqIgnoreCase "RSeq".toList "Require".toList = false := by decide
  have e5 : eqIgnoreCase "Require".toList "Require".toList = true := by decide
  have e6 : eqIgnoreCase "Contact".toList "Require".toList = false := by decide
  have e7 : eqIgnoreCase "RSeq".toList "Contact".toList = false := by decide
  have e8 : eqIgnoreCase "Require".toList "Contact".toList = false := by decide
  have e9 : eqIgnoreCase "Contact".toList "Contact".toList = true := by decide
  have hkeep : (keepDialog st1.dialogs d0).get d0.id = some d0 ∧ ∀ j, j ≠ d0.id → (keepDialog st1.dialogs d0).get j = st.dialogs.get j := by
    rw [k1]
    obtain ⟨_, g1, g2⟩ := Dlg.C18_insert_works st.dialogs d0 hroom (fun _ => hearly)
    exact ⟨g1, g2⟩
  have hbr : bracket c.localUri = "<".toList ++ c.localUri ++ ">".toList := rfl
  unfold ring
  rw [h1]
  simp only
  rw [(wants_iff c rq).2 ⟨hp, hs⟩, if_pos rfl, hrel]
  simp only
  refine ⟨r', d0, m, rfl, ha', ?_, ⟨showNat m, ?_, Dlg.decimal_showNat m⟩, ?_, ?_, hmn, hm0, ?_, ?_, ?_, rfl, rfl, rfl, rfl, rfl, rfl, rfl, hus, htg, ?_⟩
  · rw [← hr']; exact h3
  · rw [Dlg.selects_iff]
    refine Eq.trans ?_ (others "RSeq".toList unusualRSeq).symm
    simp only [Headers.getAll, Bridge.mk, List.map_cons, List.map_nil, List.filter_cons, List.filter_nil, Header.nameEq, e1, e2, e3, if_true, Bool.false_eq_true, if_false]
  · rw [Dlg.selects_iff]
    refine Eq.trans ?_ (others "Require".toList unusualRequire).symm
    simp only [Headers.getAll, Bridge.mk, List.map_cons, List.map_nil, List.filter_cons, List.filter_nil, Header.nameEq, e4, e5, e6, if_true, Bool.false_eq_true, if_false]
  · rw [Dlg.selects_iff]
    refine Eq.trans ?_ (others "Contact".toList unusualContact).symm
    simp only [Headers.getAll, Bridge.mk, List.map_cons, List.map_nil, List.filter_cons, List.filter_nil, Header.nameEq, e7, e8, e9, if_true, Bool.false_eq_true, if_false]
    rw [hbr]
  · rw [(retag_tasks _ _ _).2.2.2]; exact hm2
  · rw [retag_rest]
  · rw [(retag_tasks _ _ _).2.2.1]; exact hkeep.1
  · intro j hj
    rw [(retag_tasks _ _ _).2.2.1]; exact hkeep.2 j hj

end Siphon.Daemon
