import Verif.Daemon.PropsWithin
import Verif.Dialog.PropsPrackMore
set_option linter.unusedSimpArgs false
set_option linter.unusedVariables false
/-!
# C120: PRACK requests within a dialog
-/
namespace Siphon.Daemon
open HdrSpec TextSpec
open Siphon.Dlg.Spec
open Siphon.Uas.Spec
open Siphon.Bridge.Spec (Copies Lines Fits Ascii)
open Siphon.Dlg (Dialog DialogId Mgr Validator copyHeader dialogIdKey first_iff absent_iff)
open Siphon.Uas (createResponse createOk acceptInvite)
open Spec

/-- C120: a PRACK in a dialog is checked against the reliable responses of that dialog and of no other one, and the outcome of the check is
kept.  It is answered with 200 exactly if the check succeeds; without an RAck of three words it is answered with 400, and with 481 if no
reliable response was ever sent in this dialog and the RAck is in order.  No dialog and no call in progress changes. -/
theorem C120_prack (c : Cfg) (es : List Ev) (txn : Nat) (rq : Request) (i : Info) (me : SipUri) (j : DialogId) (d : Dialog)
    (hf : Fine rq) (ht : GoodTag i.tag) (hme : GoodUri me) (hloc : SipUri.parse c.localUri = some me)
    (had : Admitted c rq i) (hm : rq.method = .prack) (hj : Names rq.headers j.callId j.remoteTag j.localTag)
    (hd : (run c init es).1.dialogs.get j = some d) :
    ∃ r code, step c (run c init es).1 (.request txn rq i) =
        ({ (run c init es).1 with validator := ((run c init es).1.validator.prack (dialogIdKey j) i.now rq.headers).2 }, [.final txn r]) ∧
      Answers rq code i.tag r ∧ r.body = [] ∧ (code = 200 ∨ code = 400 ∨ code = 481) ∧
      (code = 200 ↔ ∃ a, ((run c init es).1.validator.prack (dialogIdKey j) i.now rq.headers).1 = .ok a) ∧
      (Absent rq.headers "RAck" ∨ (∃ v ws, First rq.headers "RAck" v ∧ Words v ws ∧ ws.length ≠ 3) → code = 400) ∧
      (∀ v a, First rq.headers "RAck" v → RAckText v a → (run c init es).1.validator.pending.get (dialogIdKey j) = none → code = 481) := by
  have hid := (good_reach c es).named j d hd
  generalize (run c init es).1 = st at hd ⊢
  have hok : createOk me rq.headers i.tag none ≠ .panic := Uas.ok_safe hf.safe ht.short hme.1 hme.2.1 rfl
  obtain ⟨r4, a1, a2, a3⟩ := plain_done (reason := "Bad Request") hf ht (code := 400) (by omega) (by unfold Uas.ReasonOk; decide)
  obtain ⟨r8, b1, b2, b3⟩ := plain_done (reason := "Call/Transaction Does Not Exist") hf ht (code := 481) (by omega) (by unfold Uas.ReasonOk; decide)
  obtain ⟨b, hv, hvn⟩ := Dlg.validate_ascii hf.ascii j
  have hb := hvn.2 hj
  subst hb
  have hstep : step c st (.request txn rq i) = onPrack c st txn rq i d := by
    rw [admitted_step had]
    unfold handle
    rw [hm, if_pos (by decide), had.calls]
    simp only [Bool.not_true, Bool.false_eq_true, if_false, reduceCtorEq, if_true]
    unfold within
    rw [find_of hf.ascii hj hd]
  have h400 := Dlg.C84_no_rack_400 st.validator j i.now rq.headers hf.ascii hj
  have h481 : ∀ v a, First rq.headers "RAck" v → RAckText v a → st.validator.pending.get (dialogIdKey j) = none →
      (st.validator.prack (dialogIdKey j) i.now rq.headers).1 = .error .noneForDialog := by
    intro v a h1 h2 h3
    have h1' := (first_iff _ _ _).1 h1
    have hav : ∀ c ∈ v, c.toNat < 128 := by
      unfold Headers.get at h1'
      cases hg : rq.headers.getHeader "RAck".toList with
      | none => rw [hg] at h1'; cases h1'
      | some x =>
        rw [hg] at h1'
        simp only [Option.map_some, Option.some.injEq] at h1'
        subst h1'
        exact hf.ascii x (by unfold Headers.getHeader at hg; exact List.mem_of_find?_eq_some hg)
    have hp := (Dlg.C20_read v hav a).2 h2
    have hcl : (st.validator.cleanup (dialogIdKey j) i.now).pending.get (dialogIdKey j) = none := by
      unfold Validator.cleanup
      split
      · simp only [Dlg.retainAtom, Tbl.get_update_self, h3]; rfl
      · exact h3
    unfold Validator.prack
    simp only [h1', hp, Dlg.checkAtom, hcl]
  rw [hstep]
  unfold onPrack
  rw [hloc, hid]
  simp only
  unfold Dlg.handlePrack at h400 ⊢
  rw [hv] at h400 ⊢
  simp only at h400 ⊢
  cases hp : st.validator.prack (dialogIdKey j) i.now rq.headers with
  | mk res v' =>
    rw [hp] at h400 h481
    simp only at h400 h481 ⊢
    cases res with
    | ok a =>
      simp only at h400 ⊢
      cases hc : createOk me rq.headers i.tag none with
      | panic => exact absurd hc hok
      | done r =>
        obtain ⟨ha, hbody⟩ := createOk_answers hc
        refine ⟨r, 200, ?_, ha, hbody, .inl rfl, ⟨fun _ => ⟨a, rfl⟩, fun _ => rfl⟩, fun h => ?_, fun v b h1 h2 h3 => ?_⟩
        · rw [if_pos trivial]; rfl
        · obtain ⟨s', h⟩ := h400 h; cases h
        · cases h481 v b h1 h2 h3
    | error e =>
      simp only at h400 ⊢
      have hs : e.status = 400 ∨ e.status = 481 := by cases e <;> simp [Dlg.PErr.status]
      rcases hs with hs | hs <;> rw [hs] at h400 ⊢
      · refine ⟨r4, 400, ?_, a2, a3, .inr (.inl rfl), ⟨nofun, fun ⟨_, h⟩ => nomatch h⟩, fun _ => rfl, fun v b h1 h2 h3 => ?_⟩
        · rw [if_neg (by decide), if_pos rfl, a1]; rfl
        · cases h481 v b h1 h2 h3
          cases hs
      · refine ⟨r8, 481, ?_, b2, b3, .inr (.inr rfl), ⟨nofun, fun ⟨_, h⟩ => nomatch h⟩, fun h => ?_, fun _ _ _ _ _ => rfl⟩
        · rw [if_neg (by decide), if_neg (by decide), b1]; rfl
        · obtain ⟨s', h⟩ := h400 h; cases h

end Siphon.Daemon
