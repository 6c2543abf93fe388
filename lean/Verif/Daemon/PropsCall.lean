import Verif.Daemon.Frames
import Verif.Dialog.PropsTimer
set_option linter.unusedSimpArgs false
set_option linter.unusedVariables false
/-!
# C118: calls answered by the daemon
-/
namespace Siphon.Daemon
open HdrSpec TextSpec
open Siphon.Dlg.Spec
open Siphon.Uas.Spec
open Siphon.Bridge.Spec (Copies Lines Fits Ascii)
open Siphon.Bridge (putAll answerTo keepDialog bracket noSuchCall GoodName putAll_ok)
open Siphon.Dlg (Dialog DialogId Mgr Validator copyHeader dialogIdKey first_iff absent_iff)
open Siphon.Uas (createResponse createOk acceptInvite)
open Siphon.Sub (pushQuiet pushQuiet_getAll)
open Spec

/-! ## Headers that are added -/

theorem putAll_getAll : ∀ (l : List (String × Str)) (hs : Headers) (k : String), (∀ p ∈ l, eqIgnoreCase p.1.toList k.toList = false) →
    (putAll l hs).getAll k.toList = hs.getAll k.toList
  | [], _, _, _ => rfl
  | (n, v) :: l, hs, k, h => by
    rw [putAll, putAll_getAll l _ k (fun p hp => h p (by simp [hp])), pushQuiet_getAll hs n v k (h (n, v) (by simp))]

/-- the names that an answer copies -/
def copied : List String := ["Via", "Record-Route", "From", "Call-ID", "CSeq", "To"]

theorem answers_same {rq : Request} {code : Nat} {tag : Str} {r r' : Response} (h : Answers rq code tag r) (hc : r'.code = r.code)
    (hh : ∀ n ∈ copied, r'.headers.getAll n.toList = r.headers.getAll n.toList) : Answers rq code tag r' := by
  have sel : ∀ n ∈ copied, ∀ vs, Selects n.toList r'.headers.inner vs ↔ Selects n.toList r.headers.inner vs := by
    intro n hn vs
    rw [Dlg.selects_iff, Dlg.selects_iff, hh n hn]
  have all : ∀ n ∈ copied, AllCopied rq.headers r.headers n → AllCopied rq.headers r'.headers n := by
    intro n hn h1 vs
    rw [sel n hn, h1]
  have cp : ∀ n ∈ copied, Copied rq.headers r.headers n → Copied rq.headers r'.headers n := by
    intro n hn h1
    refine ⟨fun v hv => (sel n hn _).mpr (h1.1 v hv), fun ha => (sel n hn _).mpr (h1.2 ha)⟩
  refine ⟨hc.trans h.status, ⟨all _ (by simp [copied]) h.belongs.via, all _ (by simp [copied]) h.belongs.recordRoute,
    cp _ (by simp [copied]) h.belongs.from, cp _ (by simp [copied]) h.belongs.callId⟩, cp _ (by simp [copied]) h.cseq,
    fun e => cp _ (by simp [copied]) (h.trying e), fun e v hv => ?_, fun ha => (sel _ (by simp [copied]) _).mpr (h.noTo ha)⟩
  obtain ⟨v', h1, h2⟩ := h.to e v hv
  exact ⟨v', (sel _ (by simp [copied]) _).mpr h1, h2⟩

theorem answers_put {rq : Request} {code : Nat} {tag : Str} {r : Response} (h : Answers rq code tag r) (l : List (String × Str))
    (hl : ∀ p ∈ l, ∀ n ∈ copied, eqIgnoreCase p.1.toList n.toList = false) :
    Answers rq code tag { r with headers := putAll l r.headers } :=
  answers_same h rfl (fun n hn => putAll_getAll l _ n (fun p hp => hl p hp n hn))

/-! ## The arrival of a call -/

/-- The dispatcher hands the request to the handlers. -/
theorem dispatch_passed {c : Cfg} {st : St} {txn : Nat} {rq : Request} {i : Info} (hh : Hops rq.headers) (hg : i.gate = .pass) :
    dispatch c st txn rq i = handle c st txn rq i := by
  unfold dispatch
  rw [if_neg]
  · split
    · rfl
    · rw [hg]
  · unfold noHops
    split
    · rename_i v hv
      simp only [decide_eq_true_eq]
      intro hd
      exact hh v ((first_iff _ _ _).mpr hv) ((parseDec_iff _ _ _).mp hd).1
    · simp

theorem timerTooSmall_none (hs : Headers) : timerTooSmall hs = none := by
  unfold timerTooSmall
  split
  · rfl
  · rename_i se hse
    cases hg : hs.get "Session-Expires".toList with
    | none => rw [hg] at hse; cases hse
    | some v =>
      rw [hg] at hse
      simp only [Option.bind_some] at hse
      have : 90 ≤ se.delta := by
        unfold SessionExpires.parse at hse
        repeat' split at hse
        all_goals first | (cases hse; done) | skip
        rename_i hlt
        cases hse
        simp [SE_MIN, SE_MAX] at hlt
        exact Nat.le_of_not_lt (of_decide_eq_false hlt.1)
      unfold Dlg.validateSessionExpires
      simp only
      rw [if_neg (by omega)]

/-- C118: an INVITE for a new call that reaches the daemon is answered at once: with 486 if it is configured not to take calls, and
with 100 otherwise; a task then waits to go on with the call. -/
theorem C118_greeted (c : Cfg) (st : St) (txn : Nat) (rq : Request) (i : Info) (me : SipUri) (hf : Fine rq) (ht : GoodTag i.tag)
    (hm : rq.method = .invite) (hc : c.calls = true) (hh : Hops rq.headers) (hg : i.gate = .pass)
    (hn : ∀ j, Names rq.headers j.callId j.remoteTag j.localTag → st.dialogs.get j = none) (hr : Absent rq.headers "Replaces")
    (hme : SipUri.parse c.localUri = some me) :
    (c.autoAccept = false → ∃ r, step c st (.request txn rq i) = (st, [.final txn r]) ∧ Answers rq 486 i.tag r ∧ r.body = []) ∧
    (c.autoAccept = true → ∃ r, step c st (.request txn rq i) =
        ({ st with tasks := st.tasks.insert st.next (.trying txn rq me), next := st.next + 1 }, [.provisional txn r]) ∧
      Answers rq 100 i.tag r ∧ r.body = []) := by
  have hgo : step c st (.request txn rq i) = greet c st txn rq i := by
    show dispatch c st txn rq i = _
    rw [dispatch_passed hh hg]
    unfold handle
    rw [hm]
    simp only [List.contains_cons, beq_self_eq_true, Bool.true_or, if_true, hc, Bool.not_true, Bool.false_eq_true, if_false]
    unfold onInvite
    rw [hc, find_none hf.ascii hn]
    unfold replacesRefused
    rw [(absent_iff _ _).mp hr]
    simp
  rw [hgo]
  constructor
  · intro ha
    obtain ⟨r, h1, h2, h3⟩ := plain_done (reason := "Busy Here") hf ht (code := 486) (by omega) (by unfold Uas.ReasonOk; decide)
    exact ⟨r, by unfold greet; rw [ha, h1]; rfl, h2, h3⟩
  · intro ha
    obtain ⟨r, h1, h2, h3⟩ := plain_done (reason := "Trying") hf ht (code := 100) (by omega) (by unfold Uas.ReasonOk; decide)
    refine ⟨r, ?_, h2, h3⟩
    unfold greet
    rw [ha, timerTooSmall_none]
    simp only [ite_self, Bool.not_true, Bool.false_eq_true, if_false, hme, h1]
    rfl

/-- C118: whatever else happens, the task waits until it has its turn. -/
theorem C118_waits (c : Cfg) (es : List Ev) (mid : List Ev) (n : Nat) (t : Task) (h : (run c init es).1.tasks.get n = some t)
    (hn : ∀ e ∈ mid, ∀ i, e ≠ .turn n i) : (run c init (es ++ mid)).1.tasks.get n = some t := by
  rw [run_append]
  exact task_run mid (good_reach c es) h hn

/-! ## Ringing -/

theorem offer_cases (i : Info) (b : Bytes) (hb : b ≠ []) :
    (utf8Decode b = none ↔ NoText b) ∧ ∀ o, utf8Decode b = some o ↔ utf8 o = b := by
  constructor
  · constructor
    · intro h o ho
      have := (Ident.utf8Decode_iff b o).mpr ho.symm
      rw [h] at this
      cases this
    · intro h
      cases hd : utf8Decode b with
      | none => rfl
      | some o => exact absurd ((Ident.utf8Decode_iff b o).mp hd).symm (h o)
  · intro o
    rw [Ident.utf8Decode_iff]
    exact eq_comm

theorem utf8_inj {a b : Str} (h : utf8 a = utf8 b) : a = b := by
  have h1 := utf8Decode_utf8 a
  have h2 := utf8Decode_utf8 b
  rw [h, h2] at h1
  cases h1
  rfl

theorem tag_ascii {v tag v' : Str} (h : Tagged v tag v') (hv : Ascii v) (ht : GoodTag tag) : Ascii v' := by
  by_cases hc : Contains v ";tag=".toList
  · rw [h.kept hc]; exact hv
  · rw [h.added hc]
    intro x hx
    simp only [List.mem_append] at hx
    rcases hx with (hx | hx) | hx
    · exact hv x hx
    · revert x; decide
    · exact ht.ascii x hx

theorem first_ascii {rq : Request} (hf : Fine rq) {n : String} {v : Str} (h : First rq.headers n v) : Ascii v := by
  rw [first_iff] at h
  obtain ⟨x, hx, _, e⟩ := Bridge.get_mem_inner h
  subst e
  exact hf.ascii x hx

theorem answer_ascii {rq : Request} (hf : Fine rq) {code : Nat} {tag : Str} {r : Response} (hc : code ≠ 100) (h : Answers rq code tag r)
    (ht : GoodTag tag) : (∀ v, First r.headers "From" v → Ascii v) ∧ ∀ v, First r.headers "To" v → Ascii v := by
  constructor
  · intro v hv
    cases hg : rq.headers.get "From".toList with
    | none =>
      have := (absent_iff _ _).mp (h.belongs.from.2 ((absent_iff _ _).mpr hg))
      rw [first_iff, this] at hv
      cases hv
    | some w =>
      have h2 := h.belongs.from.1 w ((first_iff _ _ _).mpr hg)
      have := Dlg.first_unique hv ⟨[], h2⟩
      subst this
      exact first_ascii hf ((first_iff _ _ _).mpr hg)
  · intro v hv
    cases hg : rq.headers.get "To".toList with
    | none =>
      have := (absent_iff _ _).mp (h.noTo ((absent_iff _ _).mpr hg))
      rw [first_iff, this] at hv
      cases hv
    | some w =>
      obtain ⟨v', h2, h3⟩ := h.to hc w ((first_iff _ _ _).mpr hg)
      have := Dlg.first_unique hv ⟨[], h2⟩
      subst this
      exact tag_ascii h3 (first_ascii hf ((first_iff _ _ _).mpr hg)) ht

theorem newUas_done {rq : Request} (hf : Fine rq) {code : Nat} {tag : Str} {r : Response} (hc : code ≠ 100) (h : Answers rq code tag r)
    (ht : GoodTag tag) (l u : SipUri) : Dialog.newUas rq r l u ≠ .panic :=
  Bridge.newUas_safe (answer_ascii hf hc h ht).1 (answer_ascii hf hc h ht).2

theorem ring_done {c : Cfg} {st : St} {id txn : Nat} {rq : Request} {i : Info} {me : SipUri} {key : Option Str} (hf : Fine rq) (ht : GoodTag i.tag) :
    ∃ r more, (ring c st id txn rq i me key).2 = .provisional txn r :: more ∧ Answers rq 180 i.tag r ∧ r.body = [] ∧
      (∀ o ∈ more, ∃ k n, o = .repeating txn r k n) ∧ (ring c st id txn rq i me key).1.tasks.get id = some (.ringing txn rq me key) ∧
      (ring c st id txn rq i me key).1.waits = (retag st key r).waits := by
  obtain ⟨r, h1, h2, h3⟩ := plain_done (reason := "Ringing") hf ht (code := 180) (by omega) (by unfold Uas.ReasonOk; decide)
  unfold ring
  rw [h1]
  simp only
  have hrel : ∃ st' r' x, (if wantsReliable c rq then reliable c st rq i me r else some (st, r, none)) = some (st', r', x) ∧
      Answers rq 180 i.tag r' ∧ r'.body = [] ∧ st'.waits = st.waits := by
    split
    · have hnp := fun u => newUas_done hf (by decide) h2 ht me u
      cases hx : reliable c st rq i me r with
      | none =>
        exfalso
        unfold reliable at hx
        split at hx
        · cases hx
        · split at hx
          · rename_i hp; exact hnp _ hp
          · cases hx
          · cases hx
      | some p =>
        obtain ⟨st', r', x⟩ := p
        refine ⟨st', r', x, rfl, ?_, ?_, (reliable_tasks hx).2.2⟩
        · unfold reliable at hx
          split at hx
          · cases hx; exact h2
          · split at hx
            · cases hx
            · cases hx; exact h2
            · simp only [Option.some.injEq, Prod.mk.injEq] at hx
              obtain ⟨_, rfl, _⟩ := hx
              refine answers_put h2 _ ?_
              intro p hp n hn
              simp only [List.mem_cons, List.not_mem_nil, or_false, copied] at hp hn
              rcases hp with rfl | rfl | rfl <;> rcases hn with rfl | rfl | rfl | rfl | rfl | rfl <;> simp only <;> decide
        · unfold reliable at hx
          split at hx
          · cases hx; exact h3
          · split at hx
            · cases hx
            · cases hx; exact h3
            · simp only [Option.some.injEq, Prod.mk.injEq] at hx
              obtain ⟨_, rfl, _⟩ := hx
              exact h3
    · exact ⟨st, r, none, rfl, h2, h3, rfl⟩
  obtain ⟨st', r', x, e, h4, h5, h6⟩ := hrel
  rw [e]
  refine ⟨r', _, rfl, h4, h5, ?_, Tbl.get_insert_self _ _ _, ?_⟩
  · intro o ho
    cases x with
    | none => cases ho
    | some p => rw [List.mem_singleton] at ho; exact ⟨_, _, ho⟩
  · simp only
    unfold retag
    split <;> simp only [h6]

/-- C118: the next thing the caller gets is a 488 if its session description cannot be answered, and a 180 in all other cases, with
a tag.  After the 180 the task waits to answer the call.  With the 180 there may come only its repetitions. -/
theorem C118_rings (c : Cfg) (st : St) (n txn : Nat) (rq : Request) (i : Info) (me : SipUri) (hf : Fine rq) (ht : GoodTag i.tag)
    (hw : st.tasks.get n = some (.trying txn rq me)) :
    (BadOffer i rq.body → ∃ r, (step c st (.turn n i)).2 = [.final txn r] ∧ BareAnswer rq 488 r) ∧
    (rq.body = [] ∨ NoText rq.body ∨ (∃ a, GoodOffer i rq.body a) →
      ∃ r more key, (step c st (.turn n i)).2 = .provisional txn r :: more ∧ Answers rq 180 i.tag r ∧ r.body = [] ∧
        (∀ o ∈ more, ∃ k m, o = .repeating txn r k m) ∧ (step c st (.turn n i)).1.tasks.get n = some (.ringing txn rq me key)) := by
  have hgo : step c st (.turn n i) = afterTrying c { st with tasks := st.tasks.remove n } n txn rq i me := by
    show turn c st n i = _
    unfold turn
    rw [hw]
  rw [hgo]
  unfold afterTrying
  simp only
  constructor
  · rintro ⟨hb, o, ho, ha⟩
    rw [if_neg (by simpa using hb), ((offer_cases i rq.body hb).2 o).mpr ho]
    simp only
    rw [ha]
    exact ⟨_, rfl, bare_answers hf 488 _⟩
  · intro h
    by_cases hb : rq.body = []
    · rw [if_pos (by simp [hb])]
      obtain ⟨r, more, h1, h2, h3, h4, h5, _⟩ := ring_done (c := c)
        (st := keepWait { st with tasks := st.tasks.remove n } (waitOf txn i.now rq.headers)) (id := n) (txn := txn) (me := me)
        (key := (waitOf txn i.now rq.headers).map (·.1)) hf ht
      exact ⟨r, more, _, h1, h2, h3, h4, h5⟩
    · rw [if_neg (by simpa using hb)]
      rcases h with h | h | ⟨a, _, o, ho, ha⟩
      · exact absurd h hb
      · rw [(offer_cases i rq.body hb).1.mpr h]
        simp only
        obtain ⟨r, more, h1, h2, h3, h4, h5, _⟩ := ring_done (c := c)
          (st := keepWait { st with tasks := st.tasks.remove n } (waitOf txn i.now rq.headers)) (id := n) (txn := txn) (me := me)
          (key := (waitOf txn i.now rq.headers).map (·.1)) hf ht
        exact ⟨r, more, _, h1, h2, h3, h4, h5⟩
      · rw [((offer_cases i rq.body hb).2 o).mpr ho]
        simp only
        rw [ha]
        obtain ⟨r, more, h1, h2, h3, h4, h5, _⟩ := ring_done (c := c)
          (st := keepWait { st with tasks := st.tasks.remove n } (waitOf txn i.now rq.headers)) (id := n) (txn := txn) (me := me)
          (key := (waitOf txn i.now rq.headers).map (·.1)) hf ht
        exact ⟨r, more, _, h1, h2, h3, h4, h5⟩

end Siphon.Daemon
