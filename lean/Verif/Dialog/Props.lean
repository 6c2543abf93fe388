import Verif.Dialog.Lemmas
set_option linter.unusedSimpArgs false
/-!
# Dialogs: C14 to C18

Sequence numbers, states, route sets and the dialog table, for all histories.
-/
namespace Siphon.Dlg
open Spec TextSpec HdrSpec

@[simp] theorem updTarget_remoteCSeq (d : Dialog) (hs : Headers) : (d.updTarget hs).remoteCSeq = d.remoteCSeq := by
  unfold Dialog.updTarget; split <;> rfl
@[simp] theorem updTarget_localCSeq (d : Dialog) (hs : Headers) : (d.updTarget hs).localCSeq = d.localCSeq := by
  unfold Dialog.updTarget; split <;> rfl
@[simp] theorem updTarget_state (d : Dialog) (hs : Headers) : (d.updTarget hs).state = d.state := by
  unfold Dialog.updTarget; split <;> rfl
@[simp] theorem updTarget_routeSet (d : Dialog) (hs : Headers) : (d.updTarget hs).routeSet = d.routeSet := by
  unfold Dialog.updTarget; split <;> rfl
@[simp] theorem updTarget_lastAck (d : Dialog) (hs : Headers) : (d.updTarget hs).lastAck = d.lastAck := by
  unfold Dialog.updTarget; split <;> rfl
@[simp] theorem updTarget_id (d : Dialog) (hs : Headers) : (d.updTarget hs).id = d.id := by
  unfold Dialog.updTarget; split <;> rfl
@[simp] theorem updTimer_remoteCSeq (d : Dialog) (hs : Headers) : (d.updTimer hs).remoteCSeq = d.remoteCSeq := by
  unfold Dialog.updTimer; split <;> rfl
@[simp] theorem updTimer_localCSeq (d : Dialog) (hs : Headers) : (d.updTimer hs).localCSeq = d.localCSeq := by
  unfold Dialog.updTimer; split <;> rfl
@[simp] theorem updTimer_state (d : Dialog) (hs : Headers) : (d.updTimer hs).state = d.state := by
  unfold Dialog.updTimer; split <;> rfl
@[simp] theorem updTimer_routeSet (d : Dialog) (hs : Headers) : (d.updTimer hs).routeSet = d.routeSet := by
  unfold Dialog.updTimer; split <;> rfl
@[simp] theorem updTimer_id (d : Dialog) (hs : Headers) : (d.updTimer hs).id = d.id := by
  unfold Dialog.updTimer; split <;> rfl
theorem updRoutes_cases (d : Dialog) (r : Response) : d.updRoutes r = d ∨
    ∃ l, d.state = .early ∧ Dialog.is2xx r.code = true ∧ buildRouteSet r.headers true = .ok l ∧ l ≠ [] ∧
      d.updRoutes r = { d with routeSet := l } := by
  unfold Dialog.updRoutes
  split
  · rename_i h
    split
    · exact Or.inl rfl
    · rename_i l hl
      split
      · exact Or.inl rfl
      · rename_i he
        exact Or.inr ⟨l, h.1, h.2, hl, by simpa using he, rfl⟩
  · exact Or.inl rfl
@[simp] theorem updRoutes_remoteCSeq (d : Dialog) (r : Response) : (d.updRoutes r).remoteCSeq = d.remoteCSeq := by
  rcases updRoutes_cases d r with h | ⟨l, _, _, _, _, h⟩ <;> rw [h]
@[simp] theorem updRoutes_localCSeq (d : Dialog) (r : Response) : (d.updRoutes r).localCSeq = d.localCSeq := by
  rcases updRoutes_cases d r with h | ⟨l, _, _, _, _, h⟩ <;> rw [h]
@[simp] theorem updRoutes_state (d : Dialog) (r : Response) : (d.updRoutes r).state = d.state := by
  rcases updRoutes_cases d r with h | ⟨l, _, _, _, _, h⟩ <;> rw [h]
@[simp] theorem updRoutes_id (d : Dialog) (r : Response) : (d.updRoutes r).id = d.id := by
  rcases updRoutes_cases d r with h | ⟨l, _, _, _, _, h⟩ <;> rw [h]
@[simp] theorem confirm_remoteCSeq (d : Dialog) : d.confirm.remoteCSeq = d.remoteCSeq := by
  unfold Dialog.confirm; split <;> rfl
@[simp] theorem confirm_localCSeq (d : Dialog) : d.confirm.localCSeq = d.localCSeq := by
  unfold Dialog.confirm; split <;> rfl
@[simp] theorem confirm_routeSet (d : Dialog) : d.confirm.routeSet = d.routeSet := by
  unfold Dialog.confirm; split <;> rfl
@[simp] theorem confirm_id (d : Dialog) : d.confirm.id = d.id := by
  unfold Dialog.confirm; split <;> rfl
@[simp] theorem response_remoteCSeq (d : Dialog) (r : Response) :
    (d.updateFromResponse r).remoteCSeq = d.remoteCSeq := by
  unfold Dialog.updateFromResponse; simp only; split <;> simp
@[simp] theorem response_localCSeq (d : Dialog) (r : Response) :
    (d.updateFromResponse r).localCSeq = d.localCSeq := by
  unfold Dialog.updateFromResponse; simp only; split <;> simp
@[simp] theorem response_id (d : Dialog) (r : Response) : (d.updateFromResponse r).id = d.id := by
  unfold Dialog.updateFromResponse; simp only; split <;> simp

/-! ## C14: the peer's requests -/

theorem validateCSeq_iff (n : Nat) : validateCSeq n = .ok () ↔ 1 ≤ n ∧ n ≤ 2147483647 := by
  unfold validateCSeq MAX_CSEQ_VALUE
  split
  · simp; omega
  · split <;> simp <;> omega

theorem validateIncrement_iff (p n : Nat) : validateIncrement p n = .ok () ↔ p < n ∧ n ≤ p + 1000 := by
  unfold validateIncrement MAX_CSEQ_JUMP
  split
  · simp; omega
  · split <;> simp <;> omega

/-- **C14.** A request that is refused leaves the dialog exactly as it was. -/
theorem C14_refused_changes_nothing (d : Dialog) (r : Request) (e : DErr) (d' : Dialog)
    (h : d.updateFromRequest r = (.error e, d')) : d' = d := by
  unfold Dialog.updateFromRequest at h
  repeat' split at h
  all_goals simp_all

/-- **C14.** When a request other than ACK is accepted: its CSeq number is at most `2^31 - 1`, and after the
first it is larger than the last accepted one by at most 1000.  It then is the last accepted one. -/
theorem C14_accepted_iff (d : Dialog) (r : Request) (hm : r.method.asStr ≠ "ACK".toList) :
    (∃ d', d.updateFromRequest r = (.ok (), d')) ↔
      ∃ n, CSeqOf r.headers n ∧ 1 ≤ n ∧ n ≤ 2 ^ 31 - 1 ∧
        (0 < d.remoteCSeq → d.remoteCSeq < n ∧ n ≤ d.remoteCSeq + 1000) := by
  unfold Dialog.updateFromRequest
  constructor
  · rintro ⟨d', h⟩
    split at h
    · simp at h
    · rename_i n hn
      refine ⟨n, (cseqNumber_iff _ _).1 hn, ?_⟩
      split at h
      · simp at h
      · split at h
        · simp at h
        · rename_i hv
          have hv := (validateCSeq_iff n).1 hv
          refine ⟨hv.1, by omega, ?_⟩
          intro hpos
          rw [if_pos hpos] at h
          split at h
          · simp at h
          · rename_i hi
            exact (validateIncrement_iff _ _).1 hi
  · rintro ⟨n, hn, h1, h2, h3⟩
    rw [(cseqNumber_iff _ _).2 hn]
    simp only
    rw [if_neg (by omega), if_neg hm, (validateCSeq_iff n).2 ⟨h1, by omega⟩]
    simp only
    split
    · rename_i hpos
      rw [(validateIncrement_iff _ _).2 (h3 hpos)]
      exact ⟨_, rfl⟩
    · exact ⟨_, rfl⟩

/-- **C14.** After an accepted request other than ACK its number is the one later requests are compared to. -/
theorem C14_accepted_recorded (d : Dialog) (r : Request) (d' : Dialog) (n : Nat) (hm : r.method.asStr ≠ "ACK".toList)
    (hn : CSeqOf r.headers n) (h : d.updateFromRequest r = (.ok (), d')) : d'.remoteCSeq = n := by
  unfold Dialog.updateFromRequest at h
  rw [(cseqNumber_iff _ _).2 hn] at h
  simp only at h
  split at h
  · simp at h
  · split at h
    · simp at h
    · split at h
      · split at h
        · simp at h
        · simp only [Prod.mk.injEq, true_and] at h; rw [← h]; simp
      · simp only [Prod.mk.injEq, true_and] at h; rw [← h]; simp

/-- **C14.** An ACK is accepted exactly when it carries the number of the last accepted request, and does not
move it. -/
theorem C14_ack_iff (d : Dialog) (r : Request) (hm : r.method.asStr = "ACK".toList) :
    ((∃ d', d.updateFromRequest r = (.ok (), d')) ↔ 0 < d.remoteCSeq ∧ CSeqOf r.headers d.remoteCSeq) ∧
    (d.updateFromRequest r).2.remoteCSeq = d.remoteCSeq := by
  constructor
  · unfold Dialog.updateFromRequest
    constructor
    · rintro ⟨d', h⟩
      split at h
      · simp at h
      · rename_i n hn
        split at h
        · simp at h
        · split at h
          · simp at h
          · rename_i hne
            simp only [not_or, Decidable.not_not] at hne
            refine ⟨by omega, ?_⟩
            rw [← hne.1]
            exact (cseqNumber_iff _ _).1 hn
    · rintro ⟨hpos, hn⟩
      rw [(cseqNumber_iff _ _).2 hn]
      simp only
      rw [if_neg (by omega), if_pos hm, if_neg (by simp; omega)]
      exact ⟨_, rfl⟩
  · unfold Dialog.updateFromRequest
    split
    · rfl
    · split
      · rfl
      · split
        · rfl
        · simp

theorem step_other_remoteCSeq (d : Dialog) (o : DOp) (h : ∀ r, o ≠ .request r) : (d.step o).remoteCSeq = d.remoteCSeq := by
  cases o with
  | request r => exact absurd rfl (h r)
  | response r => exact response_remoteCSeq d r
  | confirm => exact confirm_remoteCSeq d
  | terminate => rfl
  | next => rfl
  | setSE s =>
    show (match d.setSessionExpires s with | .error _ => d | .ok d => d).remoteCSeq = _
    unfold Dialog.setSessionExpires
    split
    · rfl
    · rename_i h
      split at h
      · cases h
      · cases h; rfl

/-- **C14.** Every history has its list of accepted numbers, … -/
theorem C14_history (d : Dialog) (ops : List DOp) : ∃ ns, Accepts d ops ns := by
  induction ops generalizing d with
  | nil => exact ⟨[], .nil⟩
  | cons o ops ih =>
    by_cases ho : ∃ r, o = .request r
    · obtain ⟨r, rfl⟩ := ho
      obtain ⟨ns, hns⟩ := ih (d.updateFromRequest r).2
      cases he : d.updateFromRequest r with
      | mk res d' =>
        rw [he] at hns
        cases res with
        | error e => exact ⟨ns, .refuse he hns⟩
        | ok u =>
          by_cases hm : r.method.asStr = "ACK".toList
          · exact ⟨ns, .ack he hm hns⟩
          · obtain ⟨n, hn, _⟩ := (C14_accepted_iff d r hm).1 ⟨d', he⟩
            exact ⟨n :: ns, .take he hm hn hns⟩
    · obtain ⟨ns, hns⟩ := ih (d.step o)
      exact ⟨ns, .other (fun r hr => ho ⟨r, hr⟩) hns⟩

theorem accepts_climbs {d : Dialog} {ops : List DOp} {ns : List Nat} (h : Accepts d ops ns) :
    (∀ n ∈ ns, 1 ≤ n ∧ n ≤ 2147483647) ∧ (0 < d.remoteCSeq → Climbs d.remoteCSeq ns) ∧
      ∀ n t, ns = n :: t → Climbs n t := by
  induction h with
  | nil => exact ⟨by simp, fun _ => .nil, by simp⟩
  | @take d d' r n ops ns he hm hn _ ih =>
    obtain ⟨n', hn', h1, h2, h3⟩ := (C14_accepted_iff d r hm).1 ⟨d', he⟩
    obtain rfl := cseqOf_unique hn hn'
    have hr := C14_accepted_recorded d r d' n hm hn he
    rw [hr] at ih
    obtain ⟨i1, i2, i3⟩ := ih
    refine ⟨?_, ?_, ?_⟩
    · intro m hmem
      simp only [List.mem_cons] at hmem
      rcases hmem with rfl | hmem
      · exact ⟨h1, by omega⟩
      · exact i1 m hmem
    · intro hpos
      exact .cons (h3 hpos).1 (h3 hpos).2 (i2 (by omega))
    · intro m t he
      simp only [List.cons.injEq] at he
      rw [← he.1, ← he.2]
      exact i2 (by omega)
  | @ack d d' r ops ns he hm _ ih =>
    have := (C14_ack_iff d r hm).2
    rw [he] at this
    simp only at this
    rw [this] at ih
    exact ih
  | @refuse d d' e r ops ns he _ ih =>
    rw [C14_refused_changes_nothing d r e d' he] at ih
    exact ih
  | @other d o ops ns ho _ ih =>
    rw [step_other_remoteCSeq d o ho] at ih
    exact ih

theorem climbs_lt {a : Nat} {ns : List Nat} (h : Climbs a ns) : (∀ n ∈ ns, a < n) ∧ ns.Pairwise (· < ·) := by
  induction h with
  | nil => exact ⟨by simp, .nil⟩
  | @cons a n ns h1 h2 _ ih =>
    refine ⟨?_, ?_⟩
    · intro m hm
      simp only [List.mem_cons] at hm
      rcases hm with rfl | hm
      · exact h1
      · have := ih.1 m hm; omega
    · exact List.pairwise_cons.2 ⟨ih.1, ih.2⟩

/-- **C14.** … and whatever the history (requests, responses, confirmations, terminations, requests of our own
in any order), the accepted numbers are strictly increasing, between 1 and `2^31 - 1`, and after the first each
is larger than the one before by at most 1000. -/
theorem C14_strictly_increasing (d : Dialog) (ops : List DOp) (ns : List Nat) (h : Accepts d ops ns) :
    ns.Pairwise (· < ·) ∧ (∀ n ∈ ns, 1 ≤ n ∧ n ≤ 2 ^ 31 - 1) ∧
      (0 < d.remoteCSeq → Climbs d.remoteCSeq ns) ∧ ∀ n t, ns = n :: t → Climbs n t := by
  obtain ⟨h1, h2, h3⟩ := accepts_climbs h
  refine ⟨?_, fun n hn => ⟨(h1 n hn).1, by have := (h1 n hn).2; omega⟩, h2, h3⟩
  cases ns with
  | nil => exact .nil
  | cons n t => exact List.pairwise_cons.2 (climbs_lt (h3 n t rfl))

/-- **C14, finding.** The ACK for an INVITE is refused when a later request of the peer (a PRACK, an INFO) has
been accepted in between, although its number is that of the INVITE. -/
theorem C14_ack_after_prack (d : Dialog) (invite prack ack : Request) (n m : Nat) (d1 d2 : Dialog)
    (hi : d.updateFromRequest invite = (.ok (), d1)) (hn : CSeqOf invite.headers n)
    (him : invite.method.asStr ≠ "ACK".toList)
    (hp : d1.updateFromRequest prack = (.ok (), d2)) (hpn : CSeqOf prack.headers m)
    (hpm : prack.method.asStr ≠ "ACK".toList)
    (ha : ack.method.asStr = "ACK".toList) (han : CSeqOf ack.headers n) :
    d2.updateFromRequest ack = (.error .invalidCSeq, d2) := by
  have e1 := C14_accepted_recorded d invite d1 n him hn hi
  have e2 := C14_accepted_recorded d1 prack d2 m hpm hpn hp
  obtain ⟨k, hk, k1, k2, k3⟩ := (C14_accepted_iff d1 prack hpm).1 ⟨d2, hp⟩
  obtain rfl := cseqOf_unique hpn hk
  have hn1 : 1 ≤ n := by
    obtain ⟨k, hk, k1, _⟩ := (C14_accepted_iff d invite him).1 ⟨d1, hi⟩
    rw [cseqOf_unique hn hk]; exact k1
  have := k3 (by omega)
  unfold Dialog.updateFromRequest
  rw [(cseqNumber_iff _ _).2 han]
  simp only
  rw [if_neg (by omega), if_pos ha, if_pos (Or.inl (by omega))]

/-! ## C15: our own requests -/

theorem step_other_localCSeq (d : Dialog) (o : DOp) (h : o ≠ .next) : (d.step o).localCSeq = d.localCSeq := by
  cases o with
  | request r =>
    show (d.updateFromRequest r).2.localCSeq = _
    unfold Dialog.updateFromRequest
    repeat' split
    all_goals simp
  | response r => exact response_localCSeq d r
  | confirm => exact confirm_localCSeq d
  | terminate => rfl
  | next => exact absurd rfl h
  | setSE s =>
    show (match d.setSessionExpires s with | .error _ => d | .ok d => d).localCSeq = _
    unfold Dialog.setSessionExpires
    split
    · rfl
    · rename_i h
      split at h
      · cases h
      · cases h; rfl

/-- **C15.** Every history hands out one number per request of our own, … -/
theorem C15_history (d : Dialog) (ops : List DOp) : ∃ ns, Hands d ops ns := by
  induction ops generalizing d with
  | nil => exact ⟨[], .nil⟩
  | cons o ops ih =>
    by_cases ho : o = .next
    · subst ho
      obtain ⟨ns, h⟩ := ih d.nextLocalCSeq.2
      exact ⟨_, .next rfl h⟩
    · obtain ⟨ns, h⟩ := ih (d.step o)
      exact ⟨_, .other ho h⟩

/-- **C15 (partial).** … and they are consecutive numbers starting after the dialog's own, whatever else
happens in between, as long as the 32-bit limit is not reached.  Missing: beyond it numbers repeat
(`C15_repeats`). -/
theorem C15_consecutive_partial (d : Dialog) (ops : List DOp) (ns : List Nat) (h : Hands d ops ns)
    (hroom : d.localCSeq + ns.length < 2 ^ 32) :
    ns = (List.range ns.length).map (fun i => d.localCSeq + 1 + i) ∧ ns.Pairwise (· < ·) := by
  have key : ns = (List.range ns.length).map (fun i => d.localCSeq + 1 + i) := by
    induction h with
    | nil => rfl
    | @next d n d' ops ns he _ ih =>
      unfold Dialog.nextLocalCSeq at he
      simp only [Prod.mk.injEq] at he
      obtain ⟨h1, h2⟩ := he
      simp only [List.length_cons] at hroom
      rw [if_pos (by unfold MAX_U32; omega)] at h1 h2
      subst h1
      have hl : d'.localCSeq = d.localCSeq + 1 := by rw [← h2]
      have := ih (by rw [hl]; omega)
      rw [hl] at this
      rw [List.length_cons, List.range_succ_eq_map, List.map_cons, List.map_map]
      conv => lhs; rw [this]
      simp only [List.cons.injEq, Nat.add_zero, true_and]
      apply List.map_congr_left
      intro i _
      simp only [Function.comp]
      omega
    | @other d o ops ns ho _ ih =>
      rw [step_other_localCSeq d o ho] at ih
      exact ih hroom
  refine ⟨key, ?_⟩
  rw [key, List.pairwise_map]
  refine List.Pairwise.imp (R := (· < ·)) (by intro a b hab; omega) ?_
  exact List.pairwise_lt_range

/-- **C15, violated at the limit.** A dialog whose number has reached `2^32 - 1` hands it out again and again. -/
theorem C15_repeats (d : Dialog) (h : d.localCSeq = 2 ^ 32 - 1) :
    d.nextLocalCSeq.1 = d.nextLocalCSeq.2.nextLocalCSeq.1 := by
  unfold Dialog.nextLocalCSeq MAX_U32
  simp [h]

/-! ## C16: states -/

theorem later_trans {a b c : DState} (h : Later a b) (h' : Later b c) : Later a c := by
  cases h <;> cases h' <;> constructor

theorem confirm_later (d : Dialog) : Later d.state d.confirm.state := by
  unfold Dialog.confirm
  split
  · rename_i h; rw [h]; exact .confirmed
  · exact .same

theorem step_later (d : Dialog) (o : DOp) : Later d.state (d.step o).state := by
  cases o with
  | request r =>
    show Later d.state (d.updateFromRequest r).2.state
    have : (d.updateFromRequest r).2.state = d.state := by
      unfold Dialog.updateFromRequest
      repeat' split
      all_goals simp
    rw [this]; exact .same
  | response r =>
    show Later d.state (d.updateFromResponse r).state
    unfold Dialog.updateFromResponse
    simp only
    split
    · have := confirm_later (((d.updTarget r.headers).updRoutes r).updTimer r.headers)
      simpa using this
    · simp; exact .same
  | confirm => exact confirm_later d
  | terminate => exact .terminated
  | next => exact .same
  | setSE s =>
    have : (d.step (.setSE s)).state = d.state := by
      show (match d.setSessionExpires s with | .error _ => d | .ok d => d).state = _
      unfold Dialog.setSessionExpires
      split
      · rfl
      · rename_i h
        split at h
        · cases h
        · cases h; rfl
    rw [this]; exact .same

/-- **C16.** Between any two moments of any history the state has only moved forward: early, confirmed,
terminated. -/
theorem C16_forward (d : Dialog) (ops more : List DOp) : Later (d.run ops).state (d.run (ops ++ more)).state := by
  unfold Dialog.run
  rw [List.foldl_append]
  generalize ops.foldl Dialog.step d = e
  induction more generalizing e with
  | nil => exact .same
  | cons o more ih => exact later_trans (step_later e o) (ih (e.step o))

/-- **C16.** A terminated dialog stays terminated. -/
theorem C16_stays_terminated (d : Dialog) (ops more : List DOp) (h : (d.run ops).state = .terminated) :
    (d.run (ops ++ more)).state = .terminated := by
  have := C16_forward d ops more
  rw [h] at this
  cases hh : (d.run (ops ++ more)).state <;> rw [hh] at this
  · cases this
  · cases this

/-- **C16.** A confirmed dialog never becomes early again. -/
theorem C16_never_early_again (d : Dialog) (ops more : List DOp) (h : (d.run ops).state ≠ .early) :
    (d.run (ops ++ more)).state ≠ .early := by
  intro he
  have := C16_forward d ops more
  rw [he] at this
  cases hh : (d.run ops).state <;> rw [hh] at this h
  · exact h rfl
  · cases this
  · cases this

/-- **C16.** When a response changes the state: only a 2xx, only from early, only to confirmed. -/
theorem C16_confirmed_by_2xx (d : Dialog) (r : Response) :
    (d.updateFromResponse r).state = if d.state = .early ∧ 200 ≤ r.code ∧ r.code ≤ 299 then .confirmed else d.state := by
  unfold Dialog.updateFromResponse Dialog.is2xx
  simp only
  split
  · rename_i h
    simp only [Bool.and_eq_true, decide_eq_true_eq] at h
    unfold Dialog.confirm
    simp only [updTimer_state, updRoutes_state, updTarget_state]
    split
    · rename_i he
      rw [if_pos ⟨he, by omega, by omega⟩]
    · rename_i he
      rw [if_neg (fun hh => he hh.1)]
      simp
  · rename_i h
    simp only [Bool.and_eq_true, decide_eq_true_eq] at h
    rw [if_neg (by omega)]
    simp

/-! ## C17: the route set -/

theorem response_routeSet (d : Dialog) (r : Response) (h : (d.updateFromResponse r).routeSet ≠ d.routeSet) :
    d.state = .early ∧ (200 ≤ r.code ∧ r.code ≤ 299) ∧
      buildRouteSet r.headers true = .ok (d.updateFromResponse r).routeSet ∧ (d.updateFromResponse r).routeSet ≠ [] := by
  have e : (d.updateFromResponse r).routeSet = ((d.updTarget r.headers).updRoutes r).routeSet := by
    unfold Dialog.updateFromResponse
    simp only
    split <;> simp
  rw [e] at h ⊢
  rcases updRoutes_cases (d.updTarget r.headers) r with h' | ⟨l, h1, h2, h3, h4, h5⟩
  · rw [h'] at h; simp at h
  · rw [h5]
    simp only [updTarget_state] at h1
    unfold Dialog.is2xx at h2
    simp only [Bool.and_eq_true, decide_eq_true_eq] at h2
    exact ⟨h1, ⟨h2.1, by omega⟩, h3, h4⟩

theorem step_routeSet (d : Dialog) (o : DOp) (h : d.state ≠ .early) : (d.step o).routeSet = d.routeSet := by
  cases o with
  | request r =>
    show (d.updateFromRequest r).2.routeSet = d.routeSet
    unfold Dialog.updateFromRequest
    repeat' split
    all_goals simp
  | response r =>
    refine Classical.byContradiction fun hne => h (response_routeSet d r hne).1
  | confirm => exact confirm_routeSet d
  | terminate => rfl
  | next => rfl
  | setSE s =>
    show (match d.setSessionExpires s with | .error _ => d | .ok d => d).routeSet = _
    unfold Dialog.setSessionExpires
    split
    · rfl
    · rename_i h
      split at h
      · cases h
      · cases h; rfl

/-- **C17.** From the moment a dialog is no longer early, nothing in any history changes its route set. -/
theorem C17_frozen (d : Dialog) (ops more : List DOp) (h : (d.run ops).state ≠ .early) :
    (d.run (ops ++ more)).routeSet = (d.run ops).routeSet := by
  unfold Dialog.run at *
  rw [List.foldl_append]
  generalize ops.foldl Dialog.step d = e at h
  induction more generalizing e with
  | nil => rfl
  | cons o more ih =>
    show ((more.foldl Dialog.step (e.step o))).routeSet = _
    have hl := step_later e o
    rw [ih (e.step o) (by
      intro he
      rw [he] at hl
      cases hh : e.state <;> rw [hh] at hl h
      · exact h rfl
      · cases hl
      · cases hl)]
    exact step_routeSet e o h

/-- **C17.** While it is early only a 2xx response changes it. -/
theorem C17_only_2xx (d : Dialog) (o : DOp) (h : (d.step o).routeSet ≠ d.routeSet) :
    d.state = .early ∧ ∃ r, o = .response r ∧ 200 ≤ r.code ∧ r.code ≤ 299 := by
  have hs : d.state = .early := Classical.byContradiction fun hs => h (step_routeSet d o hs)
  refine ⟨hs, ?_⟩
  cases o with
  | request r =>
    exfalso; apply h
    show (d.updateFromRequest r).2.routeSet = d.routeSet
    unfold Dialog.updateFromRequest
    repeat' split
    all_goals simp
  | response r => exact ⟨r, rfl, (response_routeSet d r h).2.1⟩
  | confirm => exact absurd (confirm_routeSet d) h
  | terminate => exact absurd rfl h
  | next => exact absurd rfl h
  | setSE s =>
    exfalso; apply h
    show (match d.setSessionExpires s with | .error _ => d | .ok d => d).routeSet = _
    unfold Dialog.setSessionExpires
    split
    · rfl
    · rename_i h
      split at h
      · cases h
      · cases h; rfl

/-- **C17.** The parts that name the dialog never change. -/
theorem C17_identity (d : Dialog) (ops : List DOp) : (d.run ops).id = d.id := by
  unfold Dialog.run
  induction ops generalizing d with
  | nil => rfl
  | cons o ops ih =>
    show ((ops.foldl Dialog.step (d.step o))).id = _
    rw [ih]
    cases o with
    | request r =>
      show (d.updateFromRequest r).2.id = d.id
      unfold Dialog.updateFromRequest
      repeat' split
      all_goals simp
    | response r => exact response_id d r
    | confirm => exact confirm_id d
    | terminate => rfl
    | next => rfl
    | setSE s =>
      show (match d.setSessionExpires s with | .error _ => d | .ok d => d).id = _
      unfold Dialog.setSessionExpires
      split
      · rfl
      · rename_i h
        split at h
        · cases h
        · cases h; rfl

/-! ## C18: the table -/

/-- At most 10000 dialogs, each under its own identifier, at most 100 early ones per call. -/
structure TableOk (m : Mgr) : Prop where
  size : m.dialogs.length ≤ 10000
  own : ∀ e ∈ m.dialogs, e.2.id = e.1
  nodup : m.dialogs.keys.Nodup
  early : ∀ c : Str, (m.dialogs.filter (fun e => e.2.state == .early && e.1.callId == c)).length ≤ 100

theorem length_filter_remove {K V : Type} [DecidableEq K] (t : Tbl K V) (k : K) (P : K × V → Bool) :
    ((t.remove k).filter P).length = (t.filter (fun e => P e && decide (e.1 ≠ k))).length := by
  unfold Tbl.remove
  rw [List.filter_filter]

theorem tableOk_step {m : Mgr} (h : TableOk m) (o : MOp) : TableOk (m.step o) := by
  cases o with
  | insert d =>
    show TableOk (m.insert d).2
    unfold Mgr.insert MAX_CONFIRMED_DIALOGS MAX_EARLY_DIALOGS_PER_CALL_ID
    split
    · exact h
    · rename_i hlen
      split
      · exact h
      · rename_i hearly
        refine ⟨?_, ?_, Tbl.nodup_insert _ _ _ h.nodup, ?_⟩
        · have := Tbl.length_insert_le m.dialogs d.id d
          show (m.dialogs.insert d.id d).length ≤ _
          omega
        · intro e he
          simp only [Tbl.insert, List.mem_cons] at he
          rcases he with rfl | he
          · rfl
          · exact h.own e (by unfold Tbl.remove at he; exact (List.mem_filter.1 he).1)
        · intro c
          show ((m.dialogs.insert d.id d).filter _).length ≤ 100
          unfold Tbl.insert
          rw [List.filter_cons]
          have hle : ((m.dialogs.remove d.id).filter (fun e => e.2.state == .early && e.1.callId == c)).length ≤
              (m.dialogs.filter (fun e => e.2.state == .early && e.1.callId == c)).length := by
            unfold Tbl.remove
            exact (List.filter_sublist.filter _).length_le
          have := h.early c
          split
          · rename_i hc
            simp only [Bool.and_eq_true, beq_iff_eq] at hc
            have hcount : m.earlyCount d < 100 := by
              refine Classical.byContradiction fun hge => hearly ⟨hc.1, by omega⟩
            unfold Mgr.earlyCount at hcount
            simp only [List.length_cons]
            rw [length_filter_remove]
            have : (fun e : DialogId × Dialog => (e.2.state == DState.early && e.1.callId == c) && decide (e.1 ≠ d.id)) =
                (fun e => e.2.state == .early && e.1.callId == d.id.callId && e.1 != d.id) := by
              funext e
              rw [hc.2]
              by_cases hx : e.1 = d.id <;> simp [hx, bne]
            rw [this]
            omega
          · omega
  | remove i =>
    show TableOk (m.remove i)
    unfold Mgr.remove
    refine ⟨?_, ?_, Tbl.nodup_remove _ _ h.nodup, ?_⟩
    · have := Tbl.length_remove_le m.dialogs i
      have := h.size
      show (m.dialogs.remove i).length ≤ _
      omega
    · intro e he
      exact h.own e (by unfold Tbl.remove at he; exact (List.mem_filter.1 he).1)
    · intro c
      have := h.early c
      have hle : ((m.dialogs.remove i).filter (fun e => e.2.state == .early && e.1.callId == c)).length ≤
          (m.dialogs.filter (fun e => e.2.state == .early && e.1.callId == c)).length := by
        unfold Tbl.remove
        exact (List.filter_sublist.filter _).length_le
      show ((m.dialogs.remove i).filter _).length ≤ 100
      omega
  | cleanup =>
    show TableOk m.cleanup
    unfold Mgr.cleanup
    refine ⟨?_, ?_, ?_, ?_⟩
    · have := List.length_filter_le (fun e : DialogId × Dialog => e.2.state != .terminated) m.dialogs
      have := h.size
      show (m.dialogs.filter _).length ≤ _
      omega
    · intro e he
      exact h.own e (List.mem_filter.1 he).1
    · have : (Tbl.keys (m.dialogs.filter (fun e => e.2.state != .terminated))).Sublist m.dialogs.keys :=
        List.filter_sublist.map _
      exact this.nodup h.nodup
    · intro c
      have := h.early c
      have hle := ((List.filter_sublist (p := fun e : DialogId × Dialog => e.2.state != .terminated)
        (l := m.dialogs)).filter (fun e => e.2.state == .early && e.1.callId == c)).length_le
      show ((m.dialogs.filter _).filter _).length ≤ 100
      omega

theorem tableOk_run (ops : List MOp) : TableOk (Mgr.run ops) := by
  unfold Mgr.run
  have h0 : TableOk Mgr.new := ⟨by simp [Mgr.new], by simp [Mgr.new], by simp [Mgr.new, Tbl.keys], by simp [Mgr.new]⟩
  generalize Mgr.new = m at h0
  induction ops generalizing m with
  | nil => exact h0
  | cons o ops ih => exact ih _ (tableOk_step h0 o)

/-- **C18.** After any sequence of inserts, removals and clean-ups the manager holds at most 10000 dialogs. -/
theorem C18_bounded (ops : List MOp) : (Mgr.run ops).dialogs.length ≤ 10000 := (tableOk_run ops).size

/-- **C18.** And at no time more than 100 early dialogs with the same Call-ID. -/
theorem C18_early_bounded (ops : List MOp) (c : Str) :
    ((Mgr.run ops).dialogs.filter (fun e => e.2.state == .early && e.1.callId == c)).length ≤ 100 :=
  (tableOk_run ops).early c

/-- **C18.** Below the limits an insertion succeeds, the dialog is found under its identifier, and no other
dialog is affected. -/
theorem C18_insert_works (m : Mgr) (d : Dialog) (h : m.dialogs.length < 10000)
    (he : d.state = .early → (m.dialogs.filter (fun e => e.2.state == .early && e.1.callId == d.id.callId && e.1 != d.id)).length < 100) :
    (m.insert d).1 = .ok () ∧ (m.insert d).2.get d.id = some d ∧ ∀ i, i ≠ d.id → (m.insert d).2.get i = m.get i := by
  unfold Mgr.insert MAX_CONFIRMED_DIALOGS MAX_EARLY_DIALOGS_PER_CALL_ID Mgr.earlyCount
  rw [if_neg (by omega), if_neg (by rintro ⟨h1, h2⟩; have := he h1; omega)]
  refine ⟨rfl, Tbl.get_insert_self _ _ _, ?_⟩
  intro i hi
  exact Tbl.get_insert_ne _ _ hi

/-- **C18.** A refused insertion changes nothing. -/
theorem C18_refused_changes_nothing (m : Mgr) (d : Dialog) (e : DErr) (m' : Mgr) (h : m.insert d = (.error e, m')) :
    m' = m := by
  unfold Mgr.insert at h
  split at h
  · simp_all
  · split at h <;> simp_all

/-- **C18.** Removing a dialog removes that one only. -/
theorem C18_remove_works (m : Mgr) (i : DialogId) :
    (m.remove i).get i = none ∧ ∀ j, j ≠ i → (m.remove i).get j = m.get j :=
  ⟨Tbl.get_remove_self _ _, fun _ hj => Tbl.get_remove_ne _ hj⟩

/-- **C18, finding.** A full table refuses even the update of a dialog it holds: the stored state stays the old
one (the callers ignore the error). -/
theorem C18_full_refuses_update (m : Mgr) (d d' : Dialog) (h : m.dialogs.length = 10000)
    (hd : m.get d.id = some d') : (m.insert d).1 = .error .tooManyDialogs ∧ (m.insert d).2.get d.id = some d' := by
  unfold Mgr.insert MAX_CONFIRMED_DIALOGS
  rw [if_pos (by omega)]
  exact ⟨rfl, hd⟩

/-! ## The hypotheses are met -/

section Examples

private def u (s : String) : SipUri := { raw := ("sip:" ++ s).toList, sips := false, user := none, host := s.toList, port := none, params := [], headers := [] }
private def d0 : Dialog :=
  Dialog.mk { callId := "c1".toList, localTag := "a".toList, remoteTag := "b".toList } .early (u "x") [] 7 0 none (u "l") (u "r") false none none true
private def rq (m : Method) (n : String) : Request :=
  { method := m, uri := "sip:me".toList, headers := ⟨[{ name := "CSeq".toList, value := (n ++ " X").toList }]⟩, body := [] }
private def rs (c : Nat) : Response :=
  { code := c, reason := [], headers := ⟨[{ name := "Record-Route".toList, value := "<sip:p1;lr>, <sip:p2;lr>".toList }, { name := "Contact".toList, value := "<sip:new@y>".toList }]⟩, body := [] }

-- requests numbered 5, 5 again, 4, 1006, 6 and 1006: the accepted ones are 5, 6 and 1006
example : ((d0.run [.request (rq .invite "5"), .request (rq .info "5"), .request (rq .info "4"), .request (rq .info "1006")]).remoteCSeq,
    (d0.run [.request (rq .invite "5"), .request (rq .info "6"), .request (rq .info "1006")]).remoteCSeq) = (5, 1006) := by
  decide +kernel
-- C14_ack_iff, C14_ack_after_prack
example : ((d0.run [.request (rq .invite "5")]).updateFromRequest (rq .ack "5")).1 = .ok () := by decide +kernel
example : ((d0.run [.request (rq .invite "5"), .request (rq .prack "6")]).updateFromRequest (rq .ack "5")).1 =
    .error .invalidCSeq := by decide +kernel
-- C15: a request of the peer in between does not matter
example : Hands d0 [.next, .request (rq .info "9"), .next] [8, 9] :=
  .next rfl (.other (by simp) (.next (Prod.ext (by decide +kernel) rfl) .nil))
-- C16, C17: a 2xx confirms an early dialog and sets its route set; a later one does not change it
example : ((d0.run [.response (rs 180)]).state, (d0.run [.response (rs 180)]).routeSet.map (·.host),
    (d0.run [.response (rs 200)]).state, (d0.run [.response (rs 200)]).routeSet.map (·.host)) =
    (.early, [], .confirmed, ["p2".toList, "p1".toList]) := by decide +kernel
-- C18
example : ((Mgr.new.insert d0).1, (Mgr.new.insert d0).2.dialogs.length) = (.ok (), 1) := by decide +kernel

/-- **C17, finding.** Even an error response with a Contact moves the remote target. -/
theorem C17_error_moves_target :
    ((d0.run [.response (rs 404)]).remoteTarget.raw, (d0.run [.response (rs 404)]).state) =
      ("sip:new@y".toList, .early) := by decide +kernel

end Examples

end Siphon.Dlg
