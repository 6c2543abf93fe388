import Verif.Uas.DispatchProps
import Verif.Dialog.PropsTimer
set_option linter.unusedSimpArgs false
/-!
# Session timers in accepted calls, reliable responses, requests without a dialog: more of C87 and C89
-/
namespace Siphon.Uas
open Siphon.Dlg (Dialog Mgr selects_iff TimerPolicy)
open Siphon.Dlg.Spec HdrSpec TextSpec Spec

theorem getAll_yes (m n : String) (v : Str) (l : List (String × Str)) (vs : List Str) (h : eqIgnoreCase m.toList n.toList = true)
    (hl : Headers.getAll ⟨l.map (fun p => ⟨p.1.toList, p.2⟩)⟩ n.toList = vs) : Headers.getAll ⟨((m, v) :: l).map (fun p => ⟨p.1.toList, p.2⟩)⟩ n.toList = v :: vs := by
  rw [List.map_cons, getAll_cons, if_pos h, hl]; rfl

theorem getAll_no (m n : String) (v : Str) (l : List (String × Str)) (vs : List Str) (h : eqIgnoreCase m.toList n.toList = false)
    (hl : Headers.getAll ⟨l.map (fun p => ⟨p.1.toList, p.2⟩)⟩ n.toList = vs) : Headers.getAll ⟨((m, v) :: l).map (fun p => ⟨p.1.toList, p.2⟩)⟩ n.toList = vs := by
  rw [List.map_cons, getAll_cons, h, hl]; rfl

/-- the values of a header among literal headers -/
macro "look" n:term : tactic => `(tactic| repeat (first
  | (refine getAll_no _ $n _ _ _ ?_ ?_; · decide)
  | (refine getAll_yes _ $n _ _ _ ?_ ?_; · decide)
  | rfl))

/-- C87: a reliable provisional response is built only with a status from 100 to 199; with another one the call panics. -/
theorem C87_reliable_code (contact : SipUri) (rq : Headers) (tag : Str) (c : Nat) (s : Str) (n : Nat) (t : Str) (b : Option Str) :
    (∀ r, build contact rq tag (.reliable c s n t b) = .done (some r) → 100 ≤ c ∧ c ≤ 199 ∧ r.code = c ∧
      ∃ w, Selects "RSeq".toList r.headers.inner [w] ∧ Decimal w n ∧ Selects "Require".toList r.headers.inner ["100rel".toList]) ∧
    ((c < 100 ∨ 200 ≤ c) → build contact rq tag (.reliable c s n t b) = .panic) := by
  constructor
  · intro r h
    obtain ⟨f, hc, _⟩ := framed_build h
    have hrest := (C85_rest _ _ _ _ _ h).2
    simp only [build] at h
    split at h
    · cases h
    · rename_i hx
      simp only [Bool.not_eq_true, Bool.not_eq_false', Bool.and_eq_true, decide_eq_true_eq] at hx
      refine ⟨hx.1, by omega, hc, showNat n, ?_, Dlg.decimal_showNat n, ?_⟩
      · rw [hrest _ _ (by simp only [sameName_iff]; decide)]
        refine (selects_iff _ ⟨(further contact (.reliable c s n t b)).map (fun p => ⟨p.1.toList, p.2⟩)⟩ _).mpr (Eq.symm ?_)
        cases b <;> look "RSeq"
      · rw [hrest _ _ (by simp only [sameName_iff]; decide)]
        refine (selects_iff _ ⟨(further contact (.reliable c s n t b)).map (fun p => ⟨p.1.toList, p.2⟩)⟩ _).mpr (Eq.symm ?_)
        cases b <;> look "Require"
  · intro h
    simp only [build]
    rw [if_pos]
    simp only [Bool.not_eq_true', Bool.and_eq_false_iff, decide_eq_false_iff_not]
    omega

/-- C87 fails in full: a 100 Trying can be sent reliably, which RFC 3262 (3) forbids. -/
theorem C87_reliable_trying : ∃ r, build me (hdrs [("To", "<sip:b@h>")]) "t1".toList (.reliable 100 "Trying".toList 1 "d".toList none) = .done (some r) ∧
    r.code = 100 ∧ r.headers.get "RSeq".toList = some "1".toList := by
  have h : (match build me (hdrs [("To", "<sip:b@h>")]) "t1".toList (.reliable 100 "Trying".toList 1 "d".toList none) with
    | .done (some r) => r.code == 100 && r.headers.get "RSeq".toList == some "1".toList
    | _ => false) = true := by decide +kernel
  split at h
  · rename_i r hr
    simp only [Bool.and_eq_true, beq_iff_eq] at h
    exact ⟨r, hr, h.1, h.2⟩
  · cases h

/-! ## The session timer of an accepted call -/

/-- C87: with a session timer policy, the answer of an accepted call announces a timer exactly if the INVITE asks for
one; the announced value is one that the rules of C22 allow, and comes with `Require: timer`.  A call that asks for less
than one of the minima is not accepted. -/
theorem C87_timer (s s' : Server) (pol : TimerPolicy) (authed : Bool) (rq : Request) (body : Option Str) (tag : Str) (r : Response)
    (d : Dialog) (h : acceptInvite s (some pol) authed rq body tag = .done (.accepted r d, s')) (hm : 90 ≤ pol.minSe) :
    ((∀ n role, ¬ Asks rq.headers n role) ∧ Absent r.headers "Session-Expires" ∧ Absent r.headers "Require") ∨
    (∃ ask role v n rf, Asks rq.headers ask role ∧ pol.minSe ≤ ask ∧ MeetsMin rq.headers ask ∧
      Selects "Session-Expires".toList r.headers.inner [v] ∧ Selects "Require".toList r.headers.inner ["timer".toList] ∧
      SEText v n (some rf) ∧ pol.minSe ≤ n ∧ MeetsMin rq.headers n ∧ n ≤ ask) := by
  obtain ⟨_, _, _, hb, hn, _⟩ := accept_inv h
  have hrest := (C85_rest _ _ _ _ _ hb).2
  have pick : ∀ (a : Answer) (n : Str) (vs : List Str), inviteAnswer (some pol) rq.headers body = a →
      (∀ m ∈ usual, ¬ SameName n m.toList) →
      Headers.getAll ⟨(further s.contactUri a).map (fun p => ⟨p.1.toList, p.2⟩)⟩ n = vs → Selects n r.headers.inner vs := by
    intro a n vs e hu hg
    rw [hrest _ _ hu, e]
    exact (selects_iff _ ⟨_⟩ _).mpr hg.symm
  cases e : Dlg.acceptTimer pol rq.headers with
  | tooSmall m => exact absurd (by simp only [inviteAnswer, e]) (hn m)
  | noTimer =>
    left
    have ea : inviteAnswer (some pol) rq.headers body = .ok body := by simp only [inviteAnswer, e]
    refine ⟨(Dlg.C22_no_timer_iff _ _).mp e, ?_, ?_⟩
    · exact pick _ _ _ ea (by simp only [sameName_iff]; decide) (by cases body <;> look "Session-Expires")
    · exact pick _ _ _ ea (by simp only [sameName_iff]; decide) (by cases body <;> look "Require")
  | timer v n rf =>
    right
    have ea : inviteAnswer (some pol) rq.headers body = .timed body v := by simp only [inviteAnswer, e]
    obtain ⟨ask, role, ha, h1, h2, h3, _⟩ := Dlg.C22_interval _ _ _ _ _ e
    obtain ⟨g1, _⟩ := Dlg.C22_agree _ _ _ _ _ e hm
    have hno : ¬ (ask < pol.minSe ∨ ¬ MeetsMin rq.headers ask) := by
      intro hx
      obtain ⟨m, hmm⟩ := (Dlg.C22_refused_iff pol _ _ _ ha).1.mpr hx
      rw [e] at hmm
      cases hmm
    refine ⟨ask, role, v, n, rf, ha, by omega, Classical.not_not.mp (fun hx => hno (Or.inr hx)), ?_, ?_, g1, h1, h2, h3⟩
    · exact pick _ _ _ ea (by simp only [sameName_iff]; decide) (by cases body <;> look "Session-Expires")
    · exact pick _ _ _ ea (by simp only [sameName_iff]; decide) (by cases body <;> look "Require")

/-- C87: an INVITE that asks for less than one of the two minima gets a 422 that names the larger one, and no dialog;
this is the only case of a 422. -/
theorem C87_too_small (s s' : Server) (policy : Option TimerPolicy) (authed : Bool) (rq : Request) (body : Option Str) (tag : Str)
    (r : Response) (h : acceptInvite s policy authed rq body tag = .done (.tooSmall r, s')) :
    s' = s ∧ r.code = 422 ∧ Belongs rq.headers r.headers ∧
    ∃ pol ask role m w, policy = some pol ∧ Asks rq.headers ask role ∧ (ask < pol.minSe ∨ ¬ MeetsMin rq.headers ask) ∧
      Selects "Min-SE".toList r.headers.inner [w] ∧ Decimal w m ∧ pol.minSe ≤ m ∧ MeetsMin rq.headers m ∧
      (m = pol.minSe ∨ ∃ x, First rq.headers "Min-SE" x ∧ MinSEText x m) := by
  unfold acceptInvite at h
  split at h
  · cases h
  · split at h
    · cases h
    · cases h
    · split at h
      · cases h
      · split at h
        · cases h
        · cases h
        · rename_i r0 hb
          split at h
          · rename_i m hm
            simp only [Run.done.injEq, Prod.mk.injEq, Outcome.tooSmall.injEq] at h
            obtain ⟨rfl, rfl⟩ := h
            have hrest := (C85_rest _ _ _ _ _ hb).2
            have hB := C85_belongs _ _ _ _ _ hb
            obtain ⟨_, hc, _⟩ := framed_build hb
            rw [hm] at hc hrest
            cases policy with
            | none => simp [inviteAnswer] at hm
            | some pol =>
              have e : Dlg.acceptTimer pol rq.headers = .tooSmall m := by
                simp only [inviteAnswer] at hm
                split at hm
                · rename_i m' e
                  simp only [Answer.tooSmall.injEq] at hm
                  rw [e, hm]
                · cases hm
                · cases hm
              have ⟨ask, role, ha⟩ : ∃ ask role, Asks rq.headers ask role := by
                apply Classical.byContradiction
                intro hx
                have := (Dlg.C22_no_timer_iff pol rq.headers).mpr (fun n role hh => hx ⟨n, role, hh⟩)
                rw [e] at this
                cases this
              obtain ⟨g1, g2⟩ := Dlg.C22_refused_iff pol _ _ _ ha
              obtain ⟨k1, k2, k3, k4⟩ := g2 m e
              refine ⟨rfl, hc, hB.2.1, pol, ask, role, m, showNat m, rfl, ha, g1.mp ⟨m, e⟩, ?_, Dlg.decimal_showNat m, k2, k3, k4⟩
              rw [hrest _ _ (by simp only [sameName_iff]; decide)]
              refine (selects_iff _ ⟨(further s.contactUri (.tooSmall m)).map (fun p => ⟨p.1.toList, p.2⟩)⟩ _).mpr (Eq.symm ?_)
              look "Min-SE"
          · exfalso
            unfold openDialog at h
            repeat' split at h
            all_goals simp at h

/-! ## Requests that need no dialog -/

/-- C89: REGISTER, SUBSCRIBE and NOTIFY go to the application without looking for a dialog, and nothing is sent. -/
theorem C89_no_dialog (c : Settings) (s : Server) (f : From) (rq : Request) (tag : Str) (authed : Option Bool)
    (challenge : Option Response) (handled : Bool) (m : String) (hm : m ∈ ["REGISTER", "SUBSCRIBE", "NOTIFY"])
    (hq : rq.method.asStr = m.toList) (hp : Passed c authed) :
    dispatch c s f rq tag authed challenge handled = .done [.app m.toList none] := by
  rw [passed_route (Or.inl hp)]
  unfold route
  rw [hq]
  simp only [List.mem_cons, List.not_mem_nil, or_false] at hm
  rcases hm with rfl | rfl | rfl <;> rfl

/-- C89: OPTIONS is answered 200 with the methods of the application in Allow, and the application is not asked. -/
theorem C89_options (c : Settings) (s : Server) (f : From) (rq : Request) (tag : Str) (authed : Option Bool)
    (challenge : Option Response) (handled : Bool) (acts : List Act) (hq : rq.method.asStr = "OPTIONS".toList) (hp : Passed c authed)
    (h : dispatch c s f rq tag authed challenge handled = .done acts) :
    ∃ r more, acts = [.final r] ∧ r.code = 200 ∧ Selects "Allow".toList r.headers.inner (c.allow :: more) := by
  rw [passed_route (Or.inl hp)] at h
  have e : route c s f rq tag handled = onOptions c s f rq tag := by
    unfold route
    rw [hq]
    rfl
  rw [e] at h
  unfold onOptions at h
  split at h
  · cases h
  · rename_i hb
    exfalso
    simp only [build, Run.bind_eq_done] at hb
    obtain ⟨_, _, _, _, _, _, hx⟩ := hb
    cases hx
  · rename_i r0 hb
    obtain ⟨_, hc, _⟩ := framed_build hb
    simp only [Run.bind_eq_done] at h
    obtain ⟨r1, h1, r2, h2, h3⟩ := h
    simp only [Run.done.injEq] at h3
    subst h3
    have e1 : r1.code = r0.code ∧ Headers.setOrPush r0.headers "Allow".toList c.allow = .ok r1.headers := by
      unfold setE at h1
      split at h1
      · rename_i hs' hs
        simp only [Run.done.injEq] at h1
        subst h1
        exact ⟨rfl, hs⟩
      · cases h1
    have g := (getAll_setOrPush e1.2).2
    obtain ⟨⟨hcode, _⟩, _, _, hall⟩ := C89_filled c f r1 r2 h2
    refine ⟨r2, (r0.headers.getAll "Allow".toList).tail, rfl, by rw [hcode, e1.1, hc]; rfl, ?_⟩
    exact (hall "Allow" c.allow (by simp)).1 _ _ ((selects_iff _ _ _).mpr g.symm)

/-- C89: the Contact filled in names the user and the advertised address, the port of the listener the request came in
on (the advertised port if it is not known) and the transport. -/
theorem C89_contact_text (c : Settings) (f : From) : ∃ port p, Decimal port p ∧
    (∀ l, f.localPort = some l → p = l) ∧ (f.localPort = none → p = c.advertisedPort) ∧
    contactValue c f = "<sip:".toList ++ c.contactUser ++ "@".toList ++ c.advertised ++ ":".toList ++ port ++
      ";transport=".toList ++ f.transport ++ ">".toList := by
  refine ⟨_, (match f.localPort with | some p => p | none => c.advertisedPort), Dlg.decimal_showNat _, ?_, ?_, ?_⟩
  · intro l h; rw [h]
  · intro h; rw [h]
  · unfold contactValue
    simp only [List.append_assoc, List.cons_append, List.nil_append]
    rfl

/-! ## Examples -/

/-- a call that asks for a session timer -/
def timerCall (secs : String) : Request := request .invite (usualHeaders "INVITE" ++ [("Session-Expires", secs)])
def timerPolicy : TimerPolicy := { minSe := 90, preferred := some 600, force := none }
/-- what came out: status and the value of a header -/
def outcome (n : String) (x : Run (Outcome × Server)) : Option (Nat × Option Str) :=
  match x with
  | .done (.accepted r _, _) => some (r.code, r.headers.get n.toList)
  | .done (.tooSmall r, _) => some (r.code, r.headers.get n.toList)
  | _ => none

example : outcome "Session-Expires" (acceptInvite server (some timerPolicy) true (timerCall "1800") none "t1".toList) =
    some (200, some "600;refresher=uac".toList) := by decide +kernel
example : outcome "Min-SE" (acceptInvite server (some { timerPolicy with minSe := 120 }) true (timerCall "100") none "t1".toList) =
    some (422, some "120".toList) := by decide +kernel
example : outcome "Session-Expires" (acceptInvite server (some timerPolicy) true (request .invite (usualHeaders "INVITE")) none "t1".toList) =
    some (200, none) := by decide +kernel
example : did (dispatch plainSettings server peer (request .register (usualHeaders "REGISTER")) "t1".toList none none true) =
    some ["app REGISTER"] := by decide +kernel

end Siphon.Uas
