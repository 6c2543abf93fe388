import Verif.Daemon.PropsOnly
import Verif.Daemon.PropsAnswer
set_option linter.unusedSimpArgs false
set_option linter.unusedVariables false
/-!
# C120: requests within a dialog
-/
namespace Siphon.Daemon
open HdrSpec TextSpec
open Siphon.Dlg.Spec
open Siphon.Uas.Spec
open Siphon.Bridge.Spec (Copies Lines Fits Ascii)
open Siphon.Bridge (putAll answerTo keepDialog bracket noSuchCall GoodName putAll_ok)
open Siphon.Dlg (Dialog DialogId Mgr Validator copyHeader dialogIdKey first_iff absent_iff)
open Siphon.Uas (createResponse createOk acceptInvite)
open Spec

theorem admitted_step {c : Cfg} {st : St} {txn : Nat} {rq : Request} {i : Info} (h : Admitted c rq i) :
    step c st (.request txn rq i) = handle c st txn rq i := dispatch_passed h.hops h.gate

/-- C120: a BYE, UPDATE, INFO or PRACK for a dialog that is not there is answered with 481, and changes nothing. -/
theorem C120_unknown (c : Cfg) (st : St) (txn : Nat) (rq : Request) (i : Info) (hf : Fine rq) (ht : GoodTag i.tag) (had : Admitted c rq i)
    (hm : rq.method ∈ [.bye, .update, .info, .prack]) (hn : ∀ j, Names rq.headers j.callId j.remoteTag j.localTag → st.dialogs.get j = none) :
    ∃ r, step c st (.request txn rq i) = (st, [.final txn r]) ∧ r.body = [] ∧ (rq.method = .bye → BareAnswer rq 481 r) ∧
      (rq.method ≠ .bye → Answers rq 481 i.tag r) := by
  have hfind := find_none hf.ascii hn
  obtain ⟨r, h1, h2, h3⟩ := plain_done (reason := "Call/Transaction Does Not Exist") hf ht (code := 481) (by omega) (by unfold Uas.ReasonOk; decide)
  have hw : ∀ k, within st txn rq i k = (st, [.final txn r]) := by
    intro k
    unfold within
    rw [hfind]
    simp only
    rw [h1]
    rfl
  rw [admitted_step had]
  unfold handle
  simp only [List.mem_cons, List.not_mem_nil, or_false] at hm
  rcases hm with hm | hm | hm | hm <;> rw [hm, if_pos (by decide), had.calls] <;>
    simp only [Bool.not_true, Bool.false_eq_true, if_false, reduceCtorEq, if_true]
  · refine ⟨noSuchCall rq, ?_, rfl, fun _ => noSuchCall_answers hf, fun h => absurd rfl h⟩
    unfold onBye
    rw [hfind]
  · exact ⟨r, hw _, h3, False.elim, fun _ => h2⟩
  · exact ⟨r, hw _, h3, False.elim, fun _ => h2⟩
  · exact ⟨r, hw _, h3, False.elim, fun _ => h2⟩

/-- C120: a BYE ends the dialog it names and no other one, and is answered with 200. -/
theorem C120_bye (c : Cfg) (es : List Ev) (txn : Nat) (rq : Request) (i : Info) (j : DialogId) (d : Dialog) (hf : Fine rq) (ht : GoodTag i.tag)
    (had : Admitted c rq i) (hm : rq.method = .bye) (hj : Names rq.headers j.callId j.remoteTag j.localTag)
    (hd : (run c init es).1.dialogs.get j = some d) :
    ∃ r m, step c (run c init es).1 (.request txn rq i) = ({ (run c init es).1 with dialogs := m }, [.final txn r]) ∧ Answers rq 200 i.tag r ∧
      r.body = [] ∧ m.get j = none ∧ ∀ k, k ≠ j → m.get k = (run c init es).1.dialogs.get k := by
  have hid := (good_reach c es).named j d hd
  generalize (run c init es).1 = st at hd
  obtain ⟨r, h1, h2, h3⟩ := plain_done (reason := "OK") hf ht (code := 200) (by omega) (by unfold Uas.ReasonOk; decide)
  refine ⟨r, st.dialogs.remove d.id, ?_, h2, h3, ?_, ?_⟩
  · rw [admitted_step had]
    unfold handle
    rw [hm, if_pos (by decide), had.calls]
    simp only [Bool.not_true, Bool.false_eq_true, if_false, reduceCtorEq, if_true]
    unfold onBye
    rw [find_of hf.ascii hj hd]
    simp only
    rw [h1]
  · rw [hid]; exact Tbl.get_remove_self _ _
  · intro k hk
    rw [hid]; exact Tbl.get_remove_ne _ hk

/-- C120: an INFO in a dialog is answered with 200 and changes nothing. -/
theorem C120_info (c : Cfg) (st : St) (txn : Nat) (rq : Request) (i : Info) (j : DialogId) (d : Dialog) (hf : Fine rq) (ht : GoodTag i.tag)
    (had : Admitted c rq i) (hm : rq.method = .info) (hj : Names rq.headers j.callId j.remoteTag j.localTag) (hd : st.dialogs.get j = some d) :
    ∃ r, step c st (.request txn rq i) = (st, [.final txn r]) ∧ Answers rq 200 i.tag r ∧ r.body = [] := by
  obtain ⟨r, h1, h2, h3⟩ := plain_done (reason := "OK") hf ht (code := 200) (by omega) (by unfold Uas.ReasonOk; decide)
  refine ⟨r, ?_, h2, h3⟩
  rw [admitted_step had]
  unfold handle
  rw [hm, if_pos (by decide), had.calls]
  simp only [Bool.not_true, Bool.false_eq_true, if_false, reduceCtorEq, if_true]
  unfold within
  rw [find_of hf.ascii hj hd]
  simp only
  rw [h1]
  rfl

/-! ## re-INVITE and UPDATE -/

theorem modify_step {c : Cfg} {st : St} {txn : Nat} {rq : Request} {i : Info} {j : DialogId} {d : Dialog} (hf : Fine rq) (had : Admitted c rq i)
    (hm : rq.method = .invite ∨ rq.method = .update) (hj : Names rq.headers j.callId j.remoteTag j.localTag) (hd : st.dialogs.get j = some d) :
    step c st (.request txn rq i) = modify c st txn rq i (decide (rq.method = .invite)) d := by
  rw [admitted_step had]
  unfold handle
  rcases hm with hm | hm <;> rw [hm, if_pos (by decide), had.calls] <;>
    simp only [Bool.not_true, Bool.false_eq_true, if_false, reduceCtorEq, if_true]
  · unfold onInvite
    rw [had.calls, find_of hf.ascii hj hd]
    simp
  · unfold within
    rw [find_of hf.ascii hj hd]
    simp

/-- C120: a re-INVITE or UPDATE whose number is not in order is answered with 400 and changes nothing. -/
theorem C120_out_of_order (c : Cfg) (st : St) (txn : Nat) (rq : Request) (i : Info) (j : DialogId) (d : Dialog) (hf : Fine rq) (ht : GoodTag i.tag)
    (had : Admitted c rq i) (hm : rq.method = .invite ∨ rq.method = .update) (hj : Names rq.headers j.callId j.remoteTag j.localTag)
    (hd : st.dialogs.get j = some d) (hn : ∀ n, ¬ InOrder rq.headers d.remoteCSeq n) :
    ∃ r, step c st (.request txn rq i) = (st, [.final txn r]) ∧ Answers rq 400 i.tag r ∧ r.body = [] := by
  have hack : rq.method.asStr ≠ "ACK".toList := by rcases hm with h | h <;> rw [h] <;> decide
  obtain ⟨r, h1, h2, h3⟩ := plain_done (reason := "Bad Request") hf ht (code := 400) (by omega) (by unfold Uas.ReasonOk; decide)
  refine ⟨r, ?_, h2, h3⟩
  rw [modify_step hf had hm hj hd]
  unfold modify
  cases hu : d.updateFromRequest rq with
  | mk e d' =>
    cases e with
    | error e =>
      simp only
      rw [h1]
      rfl
    | ok x =>
      obtain ⟨n, a, b, c, e⟩ := (Dlg.C14_accepted_iff d rq hack).mp ⟨d', hu⟩
      exact absurd ⟨a, b, c, e⟩ (hn n)

theorem sdp_refused {rq : Request} {i : Info} (h : Refused rq i) : sdpFor i (decide (rq.method = .invite)) rq.body = .refused := by
  unfold sdpFor
  rcases h with ⟨hb, o, ho, ha⟩ | ⟨hm, hb, ho⟩
  · rw [if_pos (by simpa using hb), ((offer_cases i rq.body hb).2 o).mpr ho]
    simp only
    rw [ha]
  · rw [hb, ho, hm]
    simp

theorem sdp_body {rq : Request} {i : Info} {b : Option Str} (h : Redescribed rq i b) :
    sdpFor i (decide (rq.method = .invite)) rq.body = .body b := by
  unfold sdpFor
  cases h with
  | answer h =>
    obtain ⟨hb, o, ho, ha⟩ := h
    rw [if_pos (by simpa using hb), ((offer_cases i rq.body hb).2 o).mpr ho]
    simp only
    rw [ha]
  | unread h =>
    have hb : rq.body ≠ [] := fun e => h [] (by rw [e]; rfl)
    rw [if_pos (by simpa using hb), (offer_cases i rq.body hb).1.mpr h]
  | offer hm hb ho =>
    rw [hb, ho, hm]
    simp
  | nothing hm hb =>
    rw [hb, hm]
    simp

/-- C120: a re-INVITE or UPDATE whose session description is not acceptable is answered with 488 and changes nothing. -/
theorem C120_refused (c : Cfg) (st : St) (txn : Nat) (rq : Request) (i : Info) (j : DialogId) (d : Dialog) (n : Nat) (hf : Fine rq) (ht : GoodTag i.tag)
    (had : Admitted c rq i) (hm : rq.method = .invite ∨ rq.method = .update) (hj : Names rq.headers j.callId j.remoteTag j.localTag)
    (hd : st.dialogs.get j = some d) (hn : InOrder rq.headers d.remoteCSeq n) (hr : Refused rq i) :
    ∃ r, step c st (.request txn rq i) = (st, [.final txn r]) ∧ Answers rq 488 i.tag r ∧ r.body = [] := by
  have hack : rq.method.asStr ≠ "ACK".toList := by rcases hm with h | h <;> rw [h] <;> decide
  obtain ⟨r, h1, h2, h3⟩ := plain_done (reason := "Not Acceptable Here") hf ht (code := 488) (by omega) (by unfold Uas.ReasonOk; decide)
  refine ⟨r, ?_, h2, h3⟩
  rw [modify_step hf had hm hj hd]
  obtain ⟨d', hu⟩ := (Dlg.C14_accepted_iff d rq hack).mpr ⟨n, hn⟩
  unfold modify
  rw [hu]
  simp only
  rw [sdp_refused hr]
  simp only
  rw [h1]
  rfl

/-- C120: a re-INVITE or UPDATE in order is answered with 200, with the daemon's Contact and the session description due; its number is
recorded, the dialog is confirmed and otherwise stays as it was, but for its remote target (which becomes the daemon's own Contact, see
`C120_own_target`).  Every other dialog stays.  A re-INVITE starts the session timer again, with the interval of the dialog. -/
theorem C120_modifies (c : Cfg) (es : List Ev) (txn : Nat) (rq : Request) (i : Info) (me : SipUri) (j : DialogId) (d : Dialog) (n : Nat) (b : Option Str)
    (hf : Fine rq) (ht : GoodTag i.tag) (hme : GoodUri me) (hloc : SipUri.parse c.localUri = some me)
    (had : Admitted c rq i) (hm : rq.method = .invite ∨ rq.method = .update) (hj : Names rq.headers j.callId j.remoteTag j.localTag)
    (hd : (run c init es).1.dialogs.get j = some d) (hn : InOrder rq.headers d.remoteCSeq n) (hb : Redescribed rq i b)
    (hs : ∀ s, b = some s → utf8Len s ≤ 1048576) (hroom : (run c init es).1.dialogs.dialogs.length < 10000) :
    ∃ r d' m timers, step c (run c init es).1 (.request txn rq i) = ({ (run c init es).1 with dialogs := m }, timers ++ [.final txn r]) ∧
      Answers rq 200 i.tag r ∧ r.body = bytes b ∧ Selects "Contact".toList r.headers.inner ["<".toList ++ me.raw ++ ">".toList] ∧
      m.get j = some d' ∧ (∀ k, k ≠ j → m.get k = (run c init es).1.dialogs.get k) ∧
      d'.id = d.id ∧ d'.remoteCSeq = n ∧ d'.localCSeq = d.localCSeq ∧ d'.localUri = d.localUri ∧ d'.remoteUri = d.remoteUri ∧ d'.isUac = d.isUac ∧
      d'.state = (if d.state = .early then .confirmed else d.state) ∧ d'.sessionExpires = d.sessionExpires ∧ d'.refresher = d.refresher ∧
      (d.state ≠ .early → d'.routeSet = d.routeSet) ∧ (∀ w, AddrUri ("<".toList ++ me.raw ++ ">".toList) w → d'.remoteTarget = w) ∧
      (timers = [] ∨ ∃ s w, timers = [.refresh j s w] ∧ rq.method = .invite ∧ c.timers = true ∧ d.sessionExpires = some s ∧
        (w = true ↔ d.refresher = some .uac)) ∧
      (rq.method = .invite → c.timers = true → d.sessionExpires ≠ none → timers ≠ []) := by
  have hack : rq.method.asStr ≠ "ACK".toList := by rcases hm with h | h <;> rw [h] <;> decide
  have hid := (good_reach c es).named j d hd
  generalize (run c init es).1 = st at hd hroom ⊢
  obtain ⟨d₁, hu⟩ := (Dlg.C14_accepted_iff d rq hack).mpr ⟨n, hn⟩
  have hrc := Dlg.C14_accepted_recorded d rq d₁ n hack hn.1 hu
  obtain ⟨sc, _, st1, rs1, se1, rf1, _⟩ := Dlg.C91_request d d₁ rq hu
  have hvb : Uas.validBody b = true := by
    cases b with
    | none => rfl
    | some s => exact decide_eq_true (hs s rfl)
  cases hok : createOk me rq.headers i.tag b with
  | panic => exact absurd hok (Uas.ok_safe hf.safe ht.short hme.1 hme.2.1 hvb)
  | done r =>
    obtain ⟨ha, hbody⟩ := createOk_answers hok
    obtain ⟨hcon, hse, _⟩ := ok_others hok hvb
    obtain ⟨sc2, tgt, rc2, _, _, tm, _, rs2⟩ := Dlg.C91_response d₁ r
    have noAsk : ∀ n role, ¬ Asks r.headers n role := by
      rintro n role ⟨v, hv, _⟩
      rw [first_iff, (absent_iff _ _).mp hse] at hv
      cases hv
    obtain ⟨tm1, tm2⟩ := tm noAsk
    have hst : (d₁.updateFromResponse r).state = if d.state = .early then .confirmed else d.state := by
      rw [Dlg.C16_confirmed_by_2xx, st1, ha.status]
      simp
    have hid' : (d₁.updateFromResponse r).id = j := by rw [sc2.id, sc.id, hid]
    obtain ⟨_, k1, k2⟩ := Dlg.C18_insert_works st.dialogs (d₁.updateFromResponse r) hroom (by
      rw [hst]
      split
      · intro h; cases h
      · rename_i hne; intro h; exact absurd h hne)
    refine ⟨r, d₁.updateFromResponse r, keepDialog st.dialogs (d₁.updateFromResponse r),
      if decide (rq.method = .invite) then timerOf .refresh c (d₁.updateFromResponse r) else [], ?_, ha, hbody, hcon, ?_, ?_, ?_, ?_, ?_, ?_, ?_, ?_, hst, ?_, ?_, ?_, ?_, ?_, ?_⟩
    · rw [modify_step hf had hm hj hd]
      unfold modify
      rw [hu]
      simp only
      rw [sdp_body hb]
      simp only
      rw [hloc]
      simp only [hvb, Bool.not_true, Bool.false_eq_true, if_false]
      rw [hok]
    · rw [← hid']; exact k1
    · intro k hk
      exact k2 k (by rw [hid']; exact hk)
    · rw [hid', hid]
    · rw [rc2, hrc]
    · rw [sc2.localCSeq, sc.localCSeq]
    · rw [sc2.localUri, sc.localUri]
    · rw [sc2.remoteUri, sc.remoteUri]
    · rw [sc2.isUac, sc.isUac]
    · rw [tm1, se1]
    · rw [tm2, rf1]
    · intro he
      rw [rs2 (.inl (by rw [st1]; exact he)), rs1]
    · intro w hw
      rcases tgt with ⟨v, ⟨vs, hv⟩, hvw⟩ | ⟨hno, _⟩
      · rw [Dlg.selects_iff] at hv hcon
        rw [← hcon] at hv
        cases hv
        rw [Dlg.addrUri_iff] at hvw hw
        rw [hw] at hvw
        cases hvw
        rfl
      · exact absurd ⟨_, ⟨[], hcon⟩, hw⟩ (hno w)
    · by_cases hmi : rq.method = .invite
      · simp only [hmi, decide_true, if_true]
        unfold timerOf
        cases hc : c.timers with
        | false => exact .inl (by simp)
        | true =>
          simp only [if_true]
          rw [tm1, se1]
          cases hse' : d.sessionExpires with
          | none => exact .inl rfl
          | some s =>
            refine .inr ⟨s, Dlg.siphondRefreshes (d₁.updateFromResponse r).refresher, by rw [hid'], trivial, trivial, rfl, ?_⟩
            rw [tm2, rf1]
            unfold Dlg.siphondRefreshes
            exact decide_eq_true_iff
      · simp [hmi]
    · intro hmi hc hne
      simp only [hmi, decide_true, if_true]
      unfold timerOf
      rw [hc, tm1, se1]
      simp only [if_true]
      cases hse' : d.sessionExpires with
      | none => exact absurd hse' hne
      | some s => simp

/-! ## Dialogs that are left alone -/

/-- The event has nothing to do with this dialog: it is not a request that names it, not its session timer, and not the turn of a call from
the history `es` that could open it. -/
def Ev.Spares (c : Cfg) (es : List Ev) (j : DialogId) : Ev → Prop
  | .request _ rq _ => ¬ Names rq.headers j.callId j.remoteTag j.localTag
  | .turn _ i => ∀ x q k, .request x q k ∈ es → q.method = .invite → ¬ Opens q i.tag j
  | .expired d => c.timers = true → d ≠ j
  | .sweep _ => True

theorem turned_get {rq : Request} {tag : Str} {m m' : Mgr} {j : DialogId} (h : Turned rq tag m m') (hj : ¬ Opens rq tag j) : m'.get j = m.get j := by
  cases h with
  | same => rfl
  | one h => exact keepDialog_get _ _ (fun e => hj (e ▸ h))
  | two h e => rw [keepDialog_get _ _ (fun e' => hj (by rw [e', e]; exact h)), keepDialog_get _ _ (fun (e' : j = _) => hj (e' ▸ h))]

/-- C120: nothing else touches a dialog.  Over any events that have nothing to do with it, it stays exactly as it is. -/
theorem C120_spared (c : Cfg) (j : DialogId) : ∀ (mid es : List Ev), (∀ e ∈ mid, e.Spares c (es ++ mid) j) →
    (run c init (es ++ mid)).1.dialogs.get j = (run c init es).1.dialogs.get j := by
  suffices h : ∀ (all mid es : List Ev), (∀ e ∈ es ++ mid, e ∈ all) → (∀ e ∈ mid, e.Spares c all j) →
      (run c init (es ++ mid)).1.dialogs.get j = (run c init es).1.dialogs.get j from
    fun mid es h1 => h (es ++ mid) mid es (fun e he => he) h1
  intro all mid
  induction mid with
  | nil => intro es _ _; simp
  | cons e mid ih =>
    intro es hall hs
    have key := ih (es ++ [e]) (by intro x hx; exact hall x (by simpa using hx)) (fun x hx => hs x (by simp [hx]))
    rw [show es ++ e :: mid = es ++ [e] ++ mid by simp, key, run_snoc]
    simp only
    have hsp := hs e (by simp)
    have hg := good_reach c es
    have ho := origins_reach c es
    cases e with
    | request txn rq i =>
      have hq : Quiet c txn rq (run c init es).1 (dispatch c (run c init es).1 txn rq i).1 := quiet_dispatch hg.named
      show (dispatch c (run c init es).1 txn rq i).1.dialogs.get j = _
      by_cases hx : (dispatch c (run c init es).1 txn rq i).1.dialogs.get j = (run c init es).1.dialogs.get j
      · exact hx
      · exact absurd (hq.dialogs j hx) hsp
    | turn id i =>
      show (turn c (run c init es).1 id i).1.dialogs.get j = _
      rcases turn_dialogs c (run c init es).1 id i with e | ⟨t, rq, h1, h2, h3⟩
      · rw [e]
      · refine turned_get h3 ?_
        have hb := ho.tasks id t h1
        cases t with
        | trying txn q me =>
          obtain ⟨k, h4, h5⟩ := hb
          cases h2
          exact hsp txn rq k (hall _ (by simp [h4])) h5
        | ringing txn q me key =>
          obtain ⟨k, h4, h5⟩ := hb
          cases h2
          exact hsp txn rq k (hall _ (by simp [h4])) h5
        | closing _ => cases h2
        | cancel _ => cases h2
        | clearing _ => cases h2
    | expired d =>
      show (if c.timers then { (run c init es).1 with dialogs := (run c init es).1.dialogs.remove d } else (run c init es).1).dialogs.get j = _
      split
      · rename_i hc
        exact Tbl.get_remove_ne _ (Ne.symm (hsp hc))
      · rfl
    | sweep now => rfl

/-- C120: when a session expires, its dialog is gone; nothing is sent, in particular no BYE. -/
theorem C120_expired (c : Cfg) (st : St) (j : DialogId) (hc : c.timers = true) :
    (step c st (.expired j)).2 = [] ∧ (step c st (.expired j)).1.dialogs.get j = none ∧
      ∀ k, k ≠ j → (step c st (.expired j)).1.dialogs.get k = st.dialogs.get k := by
  have e : step c st (.expired j) = ({ st with dialogs := st.dialogs.remove j }, []) := by
    show ((if c.timers then { st with dialogs := st.dialogs.remove j } else st), []) = _
    rw [if_pos hc]
  rw [e]
  exact ⟨rfl, Tbl.get_remove_self _ _, fun k hk => Tbl.get_remove_ne _ hk⟩

end Siphon.Daemon
