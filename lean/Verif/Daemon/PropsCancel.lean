import Verif.Daemon.Waits
set_option linter.unusedSimpArgs false
set_option linter.unusedVariables false
/-!
# C119: calls cancelled by the caller
-/
namespace Siphon.Daemon
open HdrSpec TextSpec
open Siphon.Dlg.Spec
open Siphon.Uas.Spec
open Siphon.Bridge.Spec (Copies Lines Fits Ascii)
open Siphon.Bridge (putAll answerTo keepDialog bracket noSuchCall GoodName putAll_ok lines_putAll)
open Siphon.Dlg (Dialog DialogId Mgr Validator copyHeader dialogIdKey first_iff absent_iff)
open Siphon.Uas (createResponse createOk acceptInvite)
open Spec

/-! ## The CANCEL itself -/

theorem noHops_iff (hs : Headers) (hh : Hops hs) : noHops hs = false := by
  unfold noHops
  split
  · rename_i v hv
    rw [decide_eq_false_iff_not]
    intro hd
    exact hh v ((first_iff _ _ _).mpr hv) ((parseDec_iff _ _ _).mp hd).1
  · rfl

/-- C119: a CANCEL is answered with 200 whether there is anything to cancel or not, and whatever the authenticator says; a task then
waits to look for the INVITE. -/
theorem C119_ok (c : Cfg) (st : St) (txn : Nat) (rq : Request) (i : Info) (me : SipUri) (hf : Fine rq) (ht : GoodTag i.tag)
    (hm : rq.method = .cancel) (hc : c.calls = true) (hh : Hops rq.headers) (hme : SipUri.parse c.localUri = some me) :
    ∃ r, step c st (.request txn rq i) =
        ({ st with tasks := st.tasks.insert st.next (.cancel rq), next := st.next + 1 }, [.final txn r]) ∧
      Answers rq 200 i.tag r ∧ r.body = [] := by
  obtain ⟨r, h1, h2, h3⟩ := plain_done (reason := "OK") hf ht (code := 200) (by omega) (by unfold Uas.ReasonOk; decide)
  refine ⟨r, ?_, h2, h3⟩
  show dispatch c st txn rq i = _
  unfold dispatch
  rw [noHops_iff _ hh, hm]
  simp only [Bool.false_eq_true, if_false]
  rw [if_pos (by decide)]
  unfold handle
  rw [hm, if_pos (by decide), hc]
  simp only [Bool.not_true, Bool.false_eq_true, if_false, reduceCtorEq]
  unfold onCancel
  rw [hme]
  simp only
  rw [h1]
  simp [spawn]

/-! ## The INVITE is terminated -/

theorem elsewhere_away {cid num ft : Str} {e : Ev} (h : Elsewhere cid num ft e) : e.Away (cid ++ ':' :: num ++ ':' :: ft) := by
  cases e with
  | request txn q i =>
    intro hm hk
    obtain ⟨a, b, d, hc, e⟩ := (keyOf_iff _ _).mp hk
    exact h hm a b d hc e.symm
  | turn _ _ => trivial
  | expired _ => trivial
  | sweep _ => trivial

theorem rings_full {c : Cfg} {st : St} {n txn : Nat} {rq : Request} {i : Info} {me : SipUri} (hf : Fine rq) (ht : GoodTag i.tag)
    (hw : st.tasks.get n = some (.trying txn rq me)) (h : rq.body = [] ∨ NoText rq.body ∨ (∃ a, GoodOffer i rq.body a)) :
    ∃ r more, (step c st (.turn n i)).2 = .provisional txn r :: more ∧ Answers rq 180 i.tag r ∧
      (step c st (.turn n i)).1.waits = (retag (keepWait st (waitOf txn i.now rq.headers)) ((waitOf txn i.now rq.headers).map (·.1)) r).waits := by
  have hgo : step c st (.turn n i) = ring c (keepWait { st with tasks := st.tasks.remove n } (waitOf txn i.now rq.headers)) n txn rq i me
      ((waitOf txn i.now rq.headers).map (·.1)) := by
    show turn c st n i = _
    unfold turn
    rw [hw]
    simp only
    unfold afterTrying
    simp only
    by_cases hb : rq.body = []
    · rw [if_pos (by simp [hb])]
    · rw [if_neg (by simpa using hb)]
      rcases h with h | h | ⟨a, _, o, ho, ha⟩
      · exact absurd h hb
      · rw [(offer_cases i rq.body hb).1.mpr h]
      · rw [((offer_cases i rq.body hb).2 o).mpr ho]
        simp only
        rw [ha]
  obtain ⟨r, more, h1, h2, _, _, _, h3⟩ := ring_done (c := c)
    (st := keepWait { st with tasks := st.tasks.remove n } (waitOf txn i.now rq.headers)) (id := n) (txn := txn) (me := me)
    (key := (waitOf txn i.now rq.headers).map (·.1)) hf ht
  refine ⟨r, more, by rw [hgo]; exact h1, h2, ?_⟩
  rw [hgo, h3]
  cases waitOf txn i.now rq.headers with
  | none => rfl
  | some p =>
    unfold retag keepWait
    simp only [Option.map_some]
    cases r.headers.get "To".toList <;> rfl

theorem fits_first {rq : Request} (hf : Fine rq) {n : String} {v : Str} (h : rq.headers.get n.toList = some v) : Fits v := by
  obtain ⟨x, hx, _, e⟩ := Bridge.get_mem_inner h
  subst e
  exact header_fits hf x hx

theorem tagged_fits {rq : Request} (hf : Fine rq) {v tag v' : Str} (hv : rq.headers.get "To".toList = some v) (ht : GoodTag tag)
    (h : Tagged v tag v') : Fits v' := by
  have h1 := fits_first hf hv
  by_cases hc : Contains v ";tag=".toList
  · rw [h.kept hc]; exact h1
  · rw [h.added hc]
    constructor
    · have h2 := h1.1
      have h3 := ht.short.1
      unfold OneLine at h2 h3 ⊢
      simp only [List.mem_append, not_or]
      refine ⟨⟨⟨h2.1, by decide⟩, h3.1⟩, ⟨⟨h2.2.1, by decide⟩, h3.2.1⟩, ⟨⟨h2.2.2, by decide⟩, h3.2.2⟩⟩
    · have h4 := hf.to v ((first_iff _ _ _).mpr hv)
      have h5 := ht.short.2
      rw [Dlg.utf8Len_append, Dlg.utf8Len_append]
      have h6 : utf8Len ";tag=".toList = 5 := by decide
      omega

theorem lone_other {k : Str} {own : List Nat} {st st' : St} {id : Nat} (h : Lone k own st) (hid : id ∈ own)
    (ht : ∀ j, j ≠ id → st'.tasks.get j = st.tasks.get j) : Lone k own st' := by
  intro j t hj hg
  have : j ≠ id := fun e => hj (e ▸ hid)
  rw [ht j this] at hg
  exact h j t hj hg

theorem terminated_lines (w : Wait) (h : Fits w.via ∧ Fits w.from ∧ Fits w.to ∧ Fits w.callId ∧ Fits w.cseq) :
    (terminated w).code = 487 ∧ (terminated w).body = [] ∧ Lines (terminated w).headers [("Via", w.via), ("From", w.from), ("To", w.to),
      ("Call-ID", w.callId), ("CSeq", w.cseq), ("Content-Length", "0".toList)] := by
  refine ⟨rfl, rfl, ?_⟩
  obtain ⟨h1, h2, h3, h4, h5⟩ := h
  unfold terminated
  simp only
  refine lines_putAll (by simp) ?_
  intro p hp
  simp only [List.mem_cons, List.not_mem_nil, or_false] at hp
  rcases hp with rfl | rfl | rfl | rfl | rfl | rfl
  · exact ⟨goodNames _ (by simp), h1⟩
  · exact ⟨goodNames _ (by simp), h2⟩
  · exact ⟨goodNames _ (by simp), h3⟩
  · exact ⟨goodNames _ (by simp), h4⟩
  · exact ⟨goodNames _ (by simp), h5⟩
  · exact ⟨goodNames _ (by simp), by unfold Fits OneLine; decide⟩

theorem single {mid : List Ev} {n : Nat} (h : ∀ e ∈ mid, ∀ i, e ≠ .turn n i) : ∀ e ∈ mid, ∀ j ∈ [n], ∀ i, e ≠ .turn j i := by
  intro e he j hj i
  rw [List.mem_singleton] at hj
  subst hj
  exact h e he i

/-- the INVITE arrives -/
theorem stage₁ {c : Cfg} {s : St} {txn : Nat} {rq : Request} {i : Info} {me : SipUri} {k : Str} {n : Nat} {mid : List Ev} {rs : List Out}
    (hstep : step c s (.request txn rq i) = ({ s with tasks := s.tasks.insert s.next (.trying txn rq me), next := s.next + 1 }, rs))
    (hg : Good s) (hl : Lone k [] s) (hn : s.next = n) (ha : ∀ e ∈ mid, e.Away k) (hw : ∀ e ∈ mid, ∀ i, e ≠ .turn n i) :
    Good (run c (step c s (.request txn rq i)).1 mid).1 ∧ Lone k [n] (run c (step c s (.request txn rq i)).1 mid).1 ∧
      (run c (step c s (.request txn rq i)).1 mid).1.tasks.get n = some (.trying txn rq me) := by
  have g1 : Good (step c s (.request txn rq i)).1 := good_step hg _
  have l1 : Lone k [n] (step c s (.request txn rq i)).1 := by
    refine lone_other (id := n) (lone_more hl n) (by simp) ?_
    intro j hj
    rw [hstep]
    simp only
    rw [hn]
    exact Tbl.get_insert_ne _ _ hj
  have t1 : (step c s (.request txn rq i)).1.tasks.get n = some (.trying txn rq me) := by
    rw [hstep]
    simp only
    rw [hn]
    exact Tbl.get_insert_self _ _ _
  exact ⟨good_run mid g1, lone_run mid g1 l1 ha (single hw), task_run mid g1 t1 hw⟩

/-- the 180 is sent -/
theorem stage₂ {c : Cfg} {s : St} {txn : Nat} {rq : Request} {i : Info} {me : SipUri} {k : Str} {n : Nat} {mid : List Ev} {v f tv cid sq : Str}
    (hf : Fine rq) (ht : GoodTag i.tag) (hok : rq.body = [] ∨ NoText rq.body ∨ ∃ a, GoodOffer i rq.body a)
    (htv : rq.headers.get "To".toList = some tv)
    (hwait : waitOf txn i.now rq.headers = some (k, ⟨txn, v, f, tv, cid, sq, i.now⟩))
    (hg : Good s) (hl : Lone k [n] s) (ht2 : s.tasks.get n = some (.trying txn rq me)) (ha : ∀ e ∈ mid, e.Away k)
    (hw : ∀ e ∈ mid, ∀ i, e ≠ .turn n i) (hsw : ∀ now, .sweep now ∈ mid → now < i.now + 300 * 10 ^ 9) :
    ∃ r more tv', (step c s (.turn n i)).2 = .provisional txn r :: more ∧ Answers rq 180 i.tag r ∧ First r.headers "To" tv' ∧
      Tagged tv i.tag tv' ∧ Good (run c (step c s (.turn n i)).1 mid).1 ∧ Lone k [n] (run c (step c s (.turn n i)).1 mid).1 ∧
      (run c (step c s (.turn n i)).1 mid).1.waits.get k = some ⟨txn, v, f, tv', cid, sq, i.now⟩ := by
  obtain ⟨r₁, more, b1, b2, b3⟩ := rings_full (c := c) hf ht ht2 hok
  obtain ⟨tv', htv', htag'⟩ := b2.to (by decide) tv ((first_iff _ _ _).mpr htv)
  have htvg : r₁.headers.get "To".toList = some tv' := (first_iff _ _ _).mp ⟨[], htv'⟩
  have w3 : (step c s (.turn n i)).1.waits.get k = some ⟨txn, v, f, tv', cid, sq, i.now⟩ := by
    rw [b3, hwait]
    unfold retag keepWait
    simp only [Option.map_some]
    rw [htvg]
    simp only
    rw [Tbl.get_update_self, Tbl.get_insert_self]
    rfl
  have g3 : Good (step c s (.turn n i)).1 := good_step hg _
  have l3 : Lone k [n] (step c s (.turn n i)).1 := lone_other (id := n) hl (by simp) (fun j hj => (aside_turn c s n i).tasks j hj)
  exact ⟨r₁, more, tv', b1, b2, ⟨[], htv'⟩, htag', good_run mid g3, lone_run mid g3 l3 ha (single hw), wait_run mid g3 l3 ha (single hw) w3 hsw⟩

/-- the CANCEL arrives -/
theorem stage₃ {c : Cfg} {s : St} {x : Nat} {cq : Request} {i i' : Info} {k : Str} {n m : Nat} {mid : List Ev} {w : Wait} {rs : List Out}
    (hstep : step c s (.request x cq i) = ({ s with tasks := s.tasks.insert s.next (.cancel cq), next := s.next + 1 }, rs))
    (hk : keyOf cq.headers = some k)
    (hg : Good s) (hl : Lone k [n] s) (hn : s.next = m) (hww : s.waits.get k = some w) (ha : ∀ e ∈ mid, e.Away k)
    (hw : ∀ e ∈ mid, ∀ i, e ≠ .turn n i) (hw' : ∀ e ∈ mid, ∀ i, e ≠ .turn m i)
    (hsw : ∀ now, .sweep now ∈ mid → now < w.born + 300 * 10 ^ 9) :
    (step c (run c (step c s (.request x cq i)).1 mid).1 (.turn m i')).2 = [.final w.txn (terminated w)] := by
  have g5 : Good (step c s (.request x cq i)).1 := good_step hg _
  have l5 : Lone k [m, n] (step c s (.request x cq i)).1 := by
    refine lone_other (id := m) (lone_more hl m) (by simp) ?_
    intro j hj
    rw [hstep]
    simp only
    rw [hn]
    exact Tbl.get_insert_ne _ _ hj
  have t5 : (step c s (.request x cq i)).1.tasks.get m = some (.cancel cq) := by
    rw [hstep]
    simp only
    rw [hn]
    exact Tbl.get_insert_self _ _ _
  have w5 : (step c s (.request x cq i)).1.waits.get k = some w := by
    rw [hstep]
    exact hww
  have own' : ∀ e ∈ mid, ∀ j ∈ [m, n], ∀ i, e ≠ .turn j i := by
    intro e he j hj i
    simp only [List.mem_cons, List.not_mem_nil, or_false] at hj
    rcases hj with rfl | rfl
    · exact hw' e he i
    · exact hw e he i
  have t6 := task_run (c := c) mid g5 t5 hw'
  have w6 := wait_run (c := c) mid g5 l5 ha own' w5 hsw
  show (turn c _ m i').2 = _
  unfold turn
  rw [t6]
  simp only
  unfold afterCancel
  rw [hk]
  simp only
  rw [w6]

/-- C119: a CANCEL for a call that rings ends it.  The INVITE `rq` came in transaction `txn`, its handler `n` has sent the 180 and waits;
then the CANCEL `cq` comes, with the same Call-ID, CSeq number and From tag.  Anything else may happen in between, but no other INVITE or
CANCEL of this call, and no clean-up more than five minutes later.  Then the CANCEL gets 200, and when its handler `m` has its turn the
INVITE gets 487, in its own transaction, with its own Via, From, Call-ID and CSeq and the To of the 180. -/
theorem C119_terminates (c : Cfg) (es mid₁ mid₂ mid₃ : List Ev) (txn x : Nat) (rq cq : Request) (i₀ i₁ i₂ i₃ : Info) (me : SipUri)
    (cid num ft : Str) (n m : Nat) (hf : Fine rq) (hfc : Fine cq) (ht₀ : GoodTag i₀.tag) (ht₁ : GoodTag i₁.tag) (ht₂ : GoodTag i₂.tag)
    (hloc : SipUri.parse c.localUri = some me) (hcalls : c.calls = true) (hauto : c.autoAccept = true) (hm : rq.method = .invite)
    (hmc : cq.method = .cancel) (hh : Hops rq.headers) (hhc : Hops cq.headers) (hg : i₀.gate = .pass) (hr : Absent rq.headers "Replaces")
    (hvia : ∃ v, First rq.headers "Via" v) (hto : ∃ v, First rq.headers "To" v ∧ NoTag v)
    (hcall : Call rq.headers cid num ft) (hcall' : Call cq.headers cid num ft)
    (hok : rq.body = [] ∨ NoText rq.body ∨ ∃ a, GoodOffer i₁ rq.body a) (hn : (run c init es).1.next = n)
    (hnm : (run c init (es ++ .request txn rq i₀ :: mid₁ ++ .turn n i₁ :: mid₂)).1.next = m)
    (hne : ∀ e ∈ es ++ mid₁ ++ mid₂ ++ mid₃, Elsewhere cid num ft e) (hwn : ∀ e ∈ mid₁ ++ mid₂ ++ mid₃, ∀ i, e ≠ .turn n i)
    (hwm : ∀ e ∈ mid₃, ∀ i, e ≠ .turn m i) (hsweep : ∀ now, .sweep now ∈ mid₂ ++ mid₃ → now < i₁.now + 300 * 10 ^ 9) :
    ∃ r₁ more r₂ r₃,
      (step c (run c init (es ++ .request txn rq i₀ :: mid₁)).1 (.turn n i₁)).2 = .provisional txn r₁ :: more ∧ Answers rq 180 i₁.tag r₁ ∧
      (step c (run c init (es ++ .request txn rq i₀ :: mid₁ ++ .turn n i₁ :: mid₂)).1 (.request x cq i₂)).2 = [.final x r₂] ∧
      Answers cq 200 i₂.tag r₂ ∧
      (step c (run c init (es ++ .request txn rq i₀ :: mid₁ ++ .turn n i₁ :: mid₂ ++ .request x cq i₂ :: mid₃)).1 (.turn m i₃)).2 =
        [.final txn r₃] ∧
      r₃.code = 487 ∧ r₃.body = [] ∧ ∃ v f t s, First rq.headers "Via" v ∧ First rq.headers "From" f ∧ First r₁.headers "To" t ∧
        First rq.headers "CSeq" s ∧
        Lines r₃.headers [("Via", v), ("From", f), ("To", t), ("Call-ID", cid), ("CSeq", s), ("Content-Length", "0".toList)] := by
  obtain ⟨tv, htv, htn⟩ := hto
  obtain ⟨v, hv⟩ := hvia
  have hk : keyOf rq.headers = some (cid ++ ':' :: num ++ ':' :: ft) := (keyOf_iff _ _).mpr ⟨cid, num, ft, hcall, rfl⟩
  have hkc : keyOf cq.headers = some (cid ++ ':' :: num ++ ':' :: ft) := (keyOf_iff _ _).mpr ⟨cid, num, ft, hcall', rfl⟩
  have away : ∀ e ∈ es ++ mid₁ ++ mid₂ ++ mid₃, e.Away (cid ++ ':' :: num ++ ':' :: ft) := fun e he => elsewhere_away (hne e he)
  obtain ⟨hcid, ⟨s, ws, hs, _⟩, f, hfr, _⟩ := hcall
  rw [first_iff] at hv htv hcid hs hfr
  generalize hkey : cid ++ ':' :: num ++ ':' :: ft = k at hk hkc away
  have hwait : waitOf txn i₁.now rq.headers = some (k, ⟨txn, v, f, tv, cid, s, i₁.now⟩) := by
    unfold waitOf
    rw [hk, hv, hfr, htv, hcid, hs]
  have hnone : ∀ j, Names rq.headers j.callId j.remoteTag j.localTag → (run c init es).1.dialogs.get j = none := by
    rintro j ⟨_, _, w, hw, hwt⟩
    rw [first_iff, htv] at hw
    cases hw
    exact absurd hwt (Dlg.noTag_not htn)
  have e1 : ∀ l, (run c init (es ++ .request txn rq i₀ :: l)).1 = (run c (step c (run c init es).1 (.request txn rq i₀)).1 l).1 := by
    intro l
    rw [run_append, run_cons]
  have e3 : ∀ l, (run c init (es ++ .request txn rq i₀ :: mid₁ ++ .turn n i₁ :: l)).1 =
      (run c (step c (run c init (es ++ .request txn rq i₀ :: mid₁)).1 (.turn n i₁)).1 l).1 := by
    intro l
    rw [run_append, run_cons]
  have e5 : ∀ l, (run c init (es ++ .request txn rq i₀ :: mid₁ ++ .turn n i₁ :: mid₂ ++ .request x cq i₂ :: l)).1 =
      (run c (step c (run c init (es ++ .request txn rq i₀ :: mid₁ ++ .turn n i₁ :: mid₂)).1 (.request x cq i₂)).1 l).1 := by
    intro l
    rw [run_append, run_cons]
  have l0 : Lone k [] (run c init es).1 := lone_run es good_init (fun id t _ h => by cases h) (fun e he => away e (by simp [he])) (by simp)
  obtain ⟨r₀, a1, _, _⟩ := (C118_greeted c (run c init es).1 txn rq i₀ me hf ht₀ hm hcalls hh hg hnone hr hloc).2 hauto
  obtain ⟨g2, l2, t2⟩ := stage₁ (mid := mid₁) a1 (good_reach c es) l0 hn (fun e he => away e (by simp [he])) (fun e he => hwn e (by simp [he]))
  rw [← e1] at g2 l2 t2
  obtain ⟨r₁, more, tv', b1, b2, b3, b4, g4, l4, w4⟩ := stage₂ (mid := mid₂) (c := c) hf ht₁ hok htv hwait g2 l2 t2
    (fun e he => away e (by simp [he])) (fun e he => hwn e (by simp [he])) (fun now hx => hsweep now (by simp [hx]))
  rw [← e3] at g4 l4 w4
  obtain ⟨r₂, d1, d2, _⟩ := C119_ok c (run c init (es ++ .request txn rq i₀ :: mid₁ ++ .turn n i₁ :: mid₂)).1 x cq i₂ me hfc ht₂ hmc hcalls hhc hloc
  have o6 := stage₃ (mid := mid₃) (i' := i₃) d1 hkc g4 l4 hnm w4 (fun e he => away e (by simp [he])) (fun e he => hwn e (by simp [he])) hwm
    (fun now hx => hsweep now (by simp [hx]))
  rw [← e5] at o6
  obtain ⟨q1, q2, q3⟩ := terminated_lines ⟨txn, v, f, tv', cid, s, i₁.now⟩
    ⟨fits_first hf hv, fits_first hf hfr, tagged_fits hf htv ht₁ b4, fits_first hf hcid, fits_first hf hs⟩
  generalize terminated ⟨txn, v, f, tv', cid, s, i₁.now⟩ = r₃ at o6 q1 q2 q3
  exact ⟨r₁, more, r₂, r₃, b1, b2, by rw [d1], d2, o6, q1, q2, v, f, tv', s, (first_iff _ _ _).mpr hv, (first_iff _ _ _).mpr hfr,
    b3, (first_iff _ _ _).mpr hs, q3⟩

end Siphon.Daemon
