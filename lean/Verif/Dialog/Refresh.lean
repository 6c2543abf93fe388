import Verif.Dialog.UacProps
set_option linter.unusedSimpArgs false
/-!
# A dialog shared by the application and the session timer: C81, C82

Model of `refresh_shared_session`, `commit_advanced_dialog` and `run_session_timer` of
`crates/sip-uac/src/integrated.rs` (2976-3148).  The refresh task and the application interleave at every lock:
a history is any list of the steps below.
-/
namespace Siphon.Dlg

/-- A refresh under way: the dialog was cloned and the number reserved, or the request has been sent. -/
inductive Flight
  | reserved (clone : Dialog)
  | sent (clone : Dialog)
  deriving DecidableEq, Repr

/-- The shared dialog, the refreshes under way, and every CSeq number put on the wire so far (latest first). -/
structure Shared where
  dialog : Dialog
  flights : Tbl Nat Flight
  wire : List Nat
  deriving Repr

/-- What can happen between two awaits. -/
inductive SOp
  /-- integrated.rs 3116-3121: the refresh clones the dialog and advances the shared one, under the write lock. -/
  | reserve (id : Nat)
  /-- integrated.rs 2577-2622: the refresh is built and sent from the clone. -/
  | send (id : Nat)
  /-- integrated.rs 2628-2633 and 3125: the answer (`none`: timeout or transport error) is applied to the clone,
  and the clone is committed. -/
  | finish (id : Nat) (answer : Option Response)
  /-- The application, holding the lock, changes the shared dialog. -/
  | owner (op : DOp)
  /-- The application, holding the lock, sends a request of its own with `prepare_in_dialog_request`. -/
  | ownerSend
  /-- integrated.rs 2137-2165 `bye` (and 2181-2200 `bye_via_flow`): the application sends from a clone. -/
  | bye

/-- integrated.rs 3137-3148 `commit_advanced_dialog`. -/
def commit (shared advanced : Dialog) : Dialog :=
  if advanced.localCSeq ≥ shared.localCSeq then advanced else shared

/-- The clone after the answer. -/
def answered (d : Dialog) : Option Response → Dialog
  | none => d
  | some r => (applyResponse d r).1

/-- One step.  A step that names a refresh that is not in the right state does nothing. -/
def Shared.step (s : Shared) : SOp → Shared
  | .reserve id =>
    match s.flights.get id with
    | some _ => s
    | none => { s with dialog := s.dialog.nextLocalCSeq.2, flights := s.flights.insert id (.reserved s.dialog) }
  | .send id =>
    match s.flights.get id with
    | some (.reserved c) =>
      { s with flights := s.flights.insert id (.sent c.nextLocalCSeq.2), wire := c.nextLocalCSeq.1 :: s.wire }
    | _ => s
  | .finish id a =>
    match s.flights.get id with
    | some (.sent c) => { s with dialog := commit s.dialog (answered c a), flights := s.flights.remove id }
    | _ => s
  | .owner op => { s with dialog := s.dialog.step op }
  | .ownerSend => { s with dialog := s.dialog.nextLocalCSeq.2, wire := s.dialog.nextLocalCSeq.1 :: s.wire }
  | .bye => { s with wire := s.dialog.nextLocalCSeq.1 :: s.wire }

/-- A history that starts with a dialog and nothing under way. -/
def Shared.run (d : Dialog) (ops : List SOp) : Shared := ops.foldl Shared.step { dialog := d, flights := [], wire := [] }

/-- The steps that do not send from a clone; `next` without sending is an owner operation like the others. -/
def NoClone (ops : List SOp) : Prop := ∀ o ∈ ops, o ≠ .bye

theorem next_small {d : Dialog} (h : d.localCSeq < MAX_U32) :
    d.nextLocalCSeq = (d.localCSeq + 1, { d with localCSeq := d.localCSeq + 1 }) := by
  unfold Dialog.nextLocalCSeq
  simp only
  rw [if_pos h]

theorem next_mono (d : Dialog) : d.localCSeq ≤ d.nextLocalCSeq.2.localCSeq := by
  unfold Dialog.nextLocalCSeq
  simp only
  split
  · exact Nat.le_succ _
  · exact Nat.le_refl _

theorem step_local_mono (d : Dialog) (o : DOp) : d.localCSeq ≤ (d.step o).localCSeq := by
  by_cases h : o = .next
  · subst h; exact next_mono d
  · rw [step_other_localCSeq d o h]; exact Nat.le_refl _

theorem answered_local (d : Dialog) (a : Option Response) : (answered d a).localCSeq = d.localCSeq := by
  cases a with
  | none => rfl
  | some r =>
    simp only [answered, applyResponse]
    split
    · simp
    · split <;> rfl

/-- A sent clone is never ahead of the shared dialog; every reserved number is behind it and nowhere else. -/
structure Sane (d0 : Nat) (s : Shared) : Prop where
  sent : ∀ id c, s.flights.get id = some (.sent c) → c.localCSeq ≤ s.dialog.localCSeq
  res : ∀ id c, s.flights.get id = some (.reserved c) →
    d0 ≤ c.localCSeq ∧ c.localCSeq + 1 ≤ s.dialog.localCSeq ∧ c.localCSeq + 1 ∉ s.wire
  pair : ∀ i j c e, s.flights.get i = some (.reserved c) → s.flights.get j = some (.reserved e) →
    c.localCSeq = e.localCSeq → i = j
  wire : s.wire.Nodup
  above : ∀ n ∈ s.wire, d0 < n ∧ n ≤ s.dialog.localCSeq
  start : d0 ≤ s.dialog.localCSeq

theorem shared_mono (s : Shared) (o : SOp) : s.dialog.localCSeq ≤ (s.step o).dialog.localCSeq := by
  cases o with
  | reserve id =>
    simp only [Shared.step]
    split
    · exact Nat.le_refl _
    · exact next_mono _
  | send id =>
    simp only [Shared.step]
    split <;> exact Nat.le_refl _
  | finish id a =>
    simp only [Shared.step]
    split
    · simp only [commit]
      split
      · assumption
      · exact Nat.le_refl _
    · exact Nat.le_refl _
  | owner op => exact step_local_mono _ _
  | ownerSend => exact next_mono _
  | bye => exact Nat.le_refl _

theorem sane_step {d0 : Nat} {s : Shared} (h : Sane d0 s) (o : SOp) (hb : o ≠ .bye)
    (hroom : (s.step o).dialog.localCSeq < MAX_U32) : Sane d0 (s.step o) := by
  have hm := shared_mono s o
  have hs : s.dialog.localCSeq < MAX_U32 := by omega
  have hn := next_small hs
  cases o with
  | bye => exact absurd rfl hb
  | reserve id =>
    simp only [Shared.step] at hroom ⊢
    split
    · exact h
    · rename_i hg
      rw [hn]
      have old : ∀ j f, (s.flights.insert id (.reserved s.dialog)).get j = some f →
          (j = id ∧ f = .reserved s.dialog) ∨ (j ≠ id ∧ s.flights.get j = some f) := by
        intro j f hf
        by_cases hj : j = id
        · subst hj; rw [Tbl.get_insert_self] at hf; cases hf; exact .inl ⟨rfl, rfl⟩
        · rw [Tbl.get_insert_ne _ _ hj] at hf; exact .inr ⟨hj, hf⟩
      refine ⟨?_, ?_, ?_, h.wire, ?_, ?_⟩
      · intro j c hf
        rcases old j _ hf with ⟨_, e⟩ | ⟨_, e⟩
        · cases e
        · have := h.sent j c e; simp only; omega
      · intro j c hf
        rcases old j _ hf with ⟨_, e⟩ | ⟨_, e⟩
        · cases e
          refine ⟨h.start, Nat.le_refl _, fun hw => ?_⟩
          have := h.above _ hw; omega
        · have := h.res j c e; exact ⟨this.1, by simp only; omega, this.2.2⟩
      · intro i j c e hi hj hce
        rcases old i _ hi with ⟨rfl, e1⟩ | ⟨_, e1⟩ <;> rcases old j _ hj with ⟨rfl, e2⟩ | ⟨_, e2⟩
        · rfl
        · cases e1; have := (h.res j e e2).2.1; omega
        · cases e2; have := (h.res i c e1).2.1; omega
        · exact h.pair i j c e e1 e2 hce
      · intro n hw; have := h.above n hw; simp only; omega
      · have := h.start; simp only; omega
  | send id =>
    simp only [Shared.step] at hroom ⊢
    split
    · rename_i c hg
      obtain ⟨r1, r2, r3⟩ := h.res id c hg
      rw [next_small (d := c) (by omega)]
      have old : ∀ j f, (s.flights.insert id (.sent { c with localCSeq := c.localCSeq + 1 })).get j = some f →
          (j = id ∧ f = .sent { c with localCSeq := c.localCSeq + 1 }) ∨ (j ≠ id ∧ s.flights.get j = some f) := by
        intro j f hf
        by_cases hj : j = id
        · subst hj; rw [Tbl.get_insert_self] at hf; cases hf; exact .inl ⟨rfl, rfl⟩
        · rw [Tbl.get_insert_ne _ _ hj] at hf; exact .inr ⟨hj, hf⟩
      refine ⟨?_, ?_, ?_, List.nodup_cons.2 ⟨r3, h.wire⟩, ?_, h.start⟩
      · intro j e hf
        rcases old j _ hf with ⟨_, e1⟩ | ⟨_, e1⟩
        · cases e1; exact r2
        · exact h.sent j e e1
      · intro j e hf
        rcases old j _ hf with ⟨_, e1⟩ | ⟨hj, e1⟩
        · cases e1
        · obtain ⟨q1, q2, q3⟩ := h.res j e e1
          refine ⟨q1, q2, fun hw => ?_⟩
          rcases List.mem_cons.1 hw with hw | hw
          · exact hj (h.pair j id e c e1 hg (by simpa using hw))
          · exact q3 hw
      · intro i j c1 c2 hi hj hce
        rcases old i _ hi with ⟨_, e1⟩ | ⟨_, e1⟩
        · cases e1
        · rcases old j _ hj with ⟨_, e2⟩ | ⟨_, e2⟩
          · cases e2
          · exact h.pair i j c1 c2 e1 e2 hce
      · intro n hw
        rcases List.mem_cons.1 hw with rfl | hw
        · exact ⟨by simp only; omega, r2⟩
        · exact h.above n hw
    · exact h
  | finish id a =>
    simp only [Shared.step] at hroom ⊢
    split
    · rename_i c hg
      have hc := h.sent id c hg
      have heq : (commit s.dialog (answered c a)).localCSeq = s.dialog.localCSeq := by
        unfold commit
        split
        · rename_i hge
          rw [answered_local] at hge ⊢
          omega
        · rfl
      have old : ∀ j f, (s.flights.remove id).get j = some f → s.flights.get j = some f := by
        intro j f hf
        by_cases hj : j = id
        · subst hj; rw [Tbl.get_remove_self] at hf; cases hf
        · rwa [Tbl.get_remove_ne _ hj] at hf
      refine ⟨?_, ?_, ?_, h.wire, ?_, ?_⟩
      · intro j e hf; simp only [heq]; exact h.sent j e (old j _ hf)
      · intro j e hf; simp only [heq]; exact h.res j e (old j _ hf)
      · intro i j c1 c2 hi hj hce
        exact h.pair i j c1 c2 (old i _ hi) (old j _ hj) hce
      · intro n hw; simp only [heq]; exact h.above n hw
      · simp only [heq]; exact h.start
    · exact h
  | owner op =>
    simp only [Shared.step] at hm hroom ⊢
    refine ⟨?_, ?_, h.pair, h.wire, ?_, ?_⟩
    · intro j c hf; have := h.sent j c hf; simp only at hm ⊢; omega
    · intro j c hf; have := h.res j c hf; exact ⟨this.1, by simp only at hm ⊢; omega, this.2.2⟩
    · intro n hw; have := h.above n hw; simp only at hm ⊢; omega
    · have := h.start; simp only at hm ⊢; omega
  | ownerSend =>
    simp only [Shared.step] at hroom ⊢
    rw [hn]
    refine ⟨?_, ?_, h.pair, ?_, ?_, ?_⟩
    · intro j c hf; have := h.sent j c hf; simp only; omega
    · intro j c hf
      obtain ⟨q1, q2, q3⟩ := h.res j c hf
      refine ⟨q1, by simp only; omega, fun hw => ?_⟩
      rcases List.mem_cons.1 hw with hw | hw
      · simp only at hw; omega
      · exact q3 hw
    · refine List.nodup_cons.2 ⟨fun hw => ?_, h.wire⟩
      have := h.above _ hw; simp only at this; omega
    · intro n hw
      have hst := h.start
      rcases List.mem_cons.1 hw with rfl | hw
      · simp only; omega
      · have := h.above n hw; simp only; omega
    · have := h.start; simp only; omega

theorem run_mono (ops : List SOp) : ∀ s : Shared, s.dialog.localCSeq ≤ (ops.foldl Shared.step s).dialog.localCSeq := by
  induction ops with
  | nil => intro s; exact Nat.le_refl _
  | cons o ops ih =>
    intro s
    exact Nat.le_trans (shared_mono s o) (ih _)

theorem sane_run (d0 : Nat) (ops : List SOp) : ∀ s : Shared, Sane d0 s → NoClone ops →
    (ops.foldl Shared.step s).dialog.localCSeq < MAX_U32 → Sane d0 (ops.foldl Shared.step s) := by
  induction ops with
  | nil => intro s h _ _; exact h
  | cons o ops ih =>
    intro s h hb hr
    simp only [List.foldl_cons] at hr ⊢
    refine ih _ (sane_step h o (hb o (by simp)) ?_) (fun x hx => hb x (by simp [hx])) hr
    exact Nat.lt_of_le_of_lt (run_mono ops _) hr

/-! ## C81 -/

/-- **C81 (partial).** However refreshes, the application's requests and the peer's requests interleave, and
whatever answers come or do not come, no CSeq number is sent twice in the dialog, every number sent is above the one
the call began with, and none is ahead of the dialog.  Missing: a BYE, which is sent from a clone
(`C81_bye_collides`), and the end of the number space (C15). -/
theorem C81_distinct_partial (d : Dialog) (ops : List SOp) (hb : NoClone ops)
    (hr : (Shared.run d ops).dialog.localCSeq < 2 ^ 32 - 1) :
    (Shared.run d ops).wire.Nodup ∧
      ∀ n ∈ (Shared.run d ops).wire, d.localCSeq < n ∧ n ≤ (Shared.run d ops).dialog.localCSeq := by
  have := sane_run d.localCSeq ops { dialog := d, flights := [], wire := [] }
    (Sane.mk (by intro id c h; cases h) (by intro id c h; cases h) (by intro i j c e h; cases h) (by simp) (by simp) (Nat.le_refl _)) hb hr
  exact ⟨this.wire, this.above⟩

/-- **C81.** The shared number never goes back, so neither do the numbers of the application's own requests. -/
theorem C81_never_back (d : Dialog) (ops more : List SOp) :
    (Shared.run d ops).dialog.localCSeq ≤ (Shared.run d (ops ++ more)).dialog.localCSeq := by
  unfold Shared.run
  rw [List.foldl_append]
  exact run_mono more _

/-- **C81, violated.** A BYE, then a refresh: the timer sends the number of the BYE again. -/
theorem C81_bye_collides (d : Dialog) (h : d.localCSeq < 2 ^ 32 - 1) :
    (Shared.run d [.bye, .reserve 1, .send 1]).wire = [d.localCSeq + 1, d.localCSeq + 1] := by
  have hn := next_small (d := d) h
  simp [Shared.run, Shared.step, hn, Tbl.get_insert_self]

/-- **C81, violated.** What the application or the peer did to the dialog while a refresh was under way, without
sending a request, is undone when the refresh ends: a dialog terminated meanwhile is alive again. -/
theorem C81_terminate_undone (d : Dialog) (h : d.localCSeq < 2 ^ 32 - 1) (a : Option Response)
    (ha : ∀ r, a = some r → r.code ≠ 408 ∧ r.code ≠ 481) (hd : d.state = .confirmed) :
    (Shared.run d [.reserve 1, .send 1, .owner .terminate]).dialog.state = .terminated ∧
    (Shared.run d [.reserve 1, .send 1, .owner .terminate, .finish 1 a]).dialog.state = .confirmed := by
  have hn := next_small (d := d) h
  constructor
  · simp [Shared.run, Shared.step, hn, Tbl.get_insert_self, Dialog.step, Dialog.terminate]
  · simp only [Shared.run, Shared.step, hn, List.foldl_cons, List.foldl_nil, Tbl.get_nil, Tbl.get_insert_self, Dialog.step]
    have hl : (answered { d with localCSeq := d.localCSeq + 1 } a).localCSeq = d.localCSeq + 1 := answered_local _ _
    unfold commit
    rw [if_pos (by rw [hl]; exact Nat.le_refl _)]
    cases a with
    | none => exact hd
    | some r =>
      obtain ⟨h1, h2⟩ := ha r rfl
      simp only [answered, applyResponse]
      split
      · rename_i h2
        unfold Dialog.updateFromResponse
        simp only [h2, if_true]
        unfold Dialog.confirm
        split
        · rfl
        · simp [hd]
      · rw [if_neg (by simp [h1, h2])]
        exact hd

/-- **C81, violated.** A request of the peer that was accepted during a refresh is accepted a second time after
it: the number it was compared with has gone back. -/
theorem C81_replay (d d' : Dialog) (r : Request) (h : d.localCSeq < 2 ^ 32 - 1) (hm : r.method.asStr ≠ "ACK".toList)
    (ha : d.updateFromRequest r = (.ok (), d')) :
    (∃ d'', (Shared.run d [.reserve 1, .send 1, .owner (.request r), .finish 1 none]).dialog.updateFromRequest r = (.ok (), d'')) ∧
    ∃ e, d'.updateFromRequest r = (.error e, d') := by
  have hn := next_small (d := d) h
  obtain ⟨n, h1, h2, h3, h4⟩ := (C14_accepted_iff d r hm).1 ⟨d', ha⟩
  have hrec := C14_accepted_recorded d r d' n hm h1 ha
  constructor
  · have hd : (Shared.run d [.reserve 1, .send 1, .owner (.request r), .finish 1 none]).dialog =
        { d with localCSeq := d.localCSeq + 1 } := by
      simp only [Shared.run, Shared.step, hn, List.foldl_cons, List.foldl_nil, Tbl.get_nil, Tbl.get_insert_self, answered]
      unfold commit
      rw [if_pos]
      rw [step_other_localCSeq _ _ (by simp)]
      exact Nat.le_refl _
    rw [hd]
    exact (C14_accepted_iff _ r hm).2 ⟨n, h1, h2, h3, h4⟩
  · cases hu : d'.updateFromRequest r with
    | mk e dd =>
      cases e with
      | ok u =>
        obtain ⟨k, k1, _, _, k4⟩ := (C14_accepted_iff d' r hm).1 ⟨dd, hu⟩
        obtain rfl := cseqOf_unique h1 k1
        have := k4 (by omega)
        omega
      | error e =>
        exact ⟨e, by rw [C14_refused_changes_nothing d' r e dd hu]⟩

/-! ## C82: the refresh loop -/

/-- `SessionTimerState` (integrated.rs 215-260), without the time of the last refresh. -/
inductive TimerState
  | healthy
  | failing (consecutive : Nat)
  | goneStopped
  | exhausted (consecutive : Nat)
  deriving DecidableEq, Repr

/-- One refresh as the loop sees it: was the answer a 2xx, and is the dialog terminated afterwards. -/
structure Outcome where
  ok : Bool
  gone : Bool
  deriving DecidableEq, Repr

/-- integrated.rs 2990-2992 `session_refresh_period`, in seconds. -/
def refreshPeriod (se : Nat) : Nat := Nat.max 1 (se / 2)

/-- integrated.rs 3004-3076 `run_session_timer`: the reports for the outcomes of successive refreshes; the loop
ends after a report of a stop.  `cap` is `max(1, max_session_refresh_failures)`; the counter saturates at
`MAX_U32`. -/
def timerLoop (cap : Nat) : Nat → List Outcome → List TimerState
  | _, [] => []
  | n, o :: os =>
    if o.ok then .healthy :: timerLoop cap 0 os
    else
      let n := if n < MAX_U32 then n + 1 else n
      if o.gone then [.goneStopped]
      else if n ≥ cap then [.exhausted n]
      else .failing n :: timerLoop cap n os

/-- The `k`-th refresh (from 0) is due this many seconds after the call began: integrated.rs 3017, `interval_at`. -/
def refreshDue (se k : Nat) : Nat := (k + 1) * refreshPeriod se

/-- **C82.** The first refresh falls due in the first half of the session interval, and the next refresh never later
than half an interval after the last one; none is due at once. -/
theorem C82_in_time (se k : Nat) (h : 2 ≤ se) : 0 < refreshDue se 0 ∧ 2 * refreshDue se 0 ≤ se ∧
    refreshDue se k < refreshDue se (k + 1) ∧ 2 * (refreshDue se (k + 1) - refreshDue se k) ≤ se := by
  have hp : refreshPeriod se = se / 2 := by
    unfold refreshPeriod
    exact Nat.max_eq_right (by omega)
  unfold refreshDue
  rw [hp]
  generalize hq : se / 2 = q
  have h1 : 1 ≤ q := by omega
  have h2 : 2 * q ≤ se := by omega
  have e : (k + 1 + 1) * q = (k + 1) * q + q := Nat.succ_mul _ _
  refine ⟨by omega, by omega, by omega, by omega⟩

/-- The last `n` outcomes of the list are failures. -/
def EndsInFailures (n : Nat) (os : List Outcome) : Prop :=
  ∃ pre fs, os = pre ++ fs ∧ fs.length = n ∧ ∀ o ∈ fs, o.ok = false

/-- A report that the timer has stopped. -/
def TimerState.stops : TimerState → Prop
  | .healthy | .failing _ => False
  | .goneStopped | .exhausted _ => True

theorem ends_ok {os : List Outcome} {o : Outcome} (h : o.ok = true) (m : Nat) : EndsInFailures m (os ++ [o]) ↔ m ≤ 0 := by
  constructor
  · rintro ⟨pre, fs, h1, rfl, h3⟩
    cases hf : fs.reverse with
    | nil => have : fs = [] := by simpa using hf
             simp [this]
    | cons x xs =>
      have hfs : fs = xs.reverse ++ [x] := by
        have := congrArg List.reverse hf
        simpa using this
      subst hfs
      rw [← List.append_assoc] at h1
      have := List.append_inj_right' h1 rfl
      simp only [List.cons.injEq, and_true] at this
      have h4 := h3 x (by simp)
      rw [← this, h] at h4
      cases h4
  · intro hm
    exact ⟨os ++ [o], [], by simp, by simp; omega, by simp⟩

theorem ends_fail {os : List Outcome} {o : Outcome} (h : o.ok = false) {n : Nat} (hn : ∀ m, EndsInFailures m os ↔ m ≤ n)
    (m : Nat) : EndsInFailures m (os ++ [o]) ↔ m ≤ n + 1 := by
  constructor
  · rintro ⟨pre, fs, h1, rfl, h3⟩
    cases hf : fs.reverse with
    | nil => have : fs = [] := by simpa using hf
             simp [this]
    | cons x xs =>
      have hfs : fs = xs.reverse ++ [x] := by
        have := congrArg List.reverse hf
        simpa using this
      subst hfs
      rw [← List.append_assoc] at h1
      have h4 := List.append_inj_left' h1 rfl
      have := (hn xs.reverse.length).1 ⟨pre, xs.reverse, h4, rfl, fun o ho => h3 o (by simp [List.mem_reverse.1 ho])⟩
      simp only [List.length_append, List.length_reverse, List.length_singleton] at this ⊢
      omega
  · intro hm
    cases m with
    | zero => exact ⟨os ++ [o], [], by simp, rfl, by simp⟩
    | succ m =>
      obtain ⟨pre, fs, h1, h2, h3⟩ := (hn m).2 (by omega)
      refine ⟨pre, fs ++ [o], by rw [h1]; simp, by simp [h2], ?_⟩
      intro x hx
      rcases List.mem_append.1 hx with hx | hx
      · exact h3 x hx
      · simp only [List.mem_singleton] at hx; rw [hx]; exact h

theorem loop_iff (cap : Nat) (hcap : 1 ≤ cap) (hc : cap ≤ MAX_U32) : ∀ (os hist : List Outcome) (n : Nat), n < cap →
    (∀ m, EndsInFailures m hist ↔ m ≤ n) →
    ((∀ x ∈ timerLoop cap n os, ¬ x.stops) ↔ ∀ pre o post, os = pre ++ o :: post →
      o.ok = true ∨ (o.gone = false ∧ ¬ EndsInFailures cap (hist ++ pre ++ [o])))
  | [], hist, n, _, _ => by simp [timerLoop]
  | o :: os, hist, n, hn, hh => by
    have hlt : n < MAX_U32 := by omega
    unfold timerLoop
    simp only [if_pos hlt]
    have shift : ∀ (P : Prop), (∀ pre x post, o :: os = pre ++ x :: post →
          x.ok = true ∨ (x.gone = false ∧ ¬ EndsInFailures cap (hist ++ pre ++ [x]))) ↔
        (o.ok = true ∨ (o.gone = false ∧ ¬ EndsInFailures cap (hist ++ [o]))) ∧
        ∀ pre x post, os = pre ++ x :: post →
          x.ok = true ∨ (x.gone = false ∧ ¬ EndsInFailures cap (hist ++ [o] ++ pre ++ [x])) := by
      intro _
      constructor
      · intro h
        refine ⟨by simpa using h [] o os rfl, fun pre x post e => ?_⟩
        have := h (o :: pre) x post (by rw [e]; rfl)
        simpa using this
      · rintro ⟨h1, h2⟩ pre x post e
        cases pre with
        | nil => simp only [List.nil_append, List.cons.injEq] at e; rw [← e.1]; simpa using h1
        | cons p pre =>
          simp only [List.cons_append, List.cons.injEq] at e
          have := h2 pre x post e.2
          rw [e.1] at this
          simpa using this
    rw [shift True]
    by_cases hok : o.ok = true
    · rw [if_pos hok]
      have ih := loop_iff cap hcap hc os (hist ++ [o]) 0 (by omega) (ends_ok hok)
      simp only [List.mem_cons, forall_eq_or_imp, TimerState.stops, not_false_eq_true, true_and, hok, true_or]
      exact ih
    · rw [if_neg hok]
      have hok' : o.ok = false := by simpa using hok
      have he := ends_fail hok' hh
      by_cases hg : o.gone = true
      · rw [if_pos hg]
        simp [TimerState.stops, hok', hg]
      · rw [if_neg hg]
        have hg' : o.gone = false := by simpa using hg
        by_cases hm : n + 1 ≥ cap
        · rw [if_pos hm]
          simp only [List.mem_singleton, forall_eq, TimerState.stops, not_true_eq_false, false_iff, not_and]
          intro h
          rcases h with h | h
          · exact absurd h hok
          · exact absurd ((he cap).2 hm) h.2
        · rw [if_neg hm]
          have ih := loop_iff cap hcap hc os (hist ++ [o]) (n + 1) (by omega) he
          have ns : ¬ (TimerState.failing (n + 1)).stops := id
          simp only [List.mem_cons, forall_eq_or_imp, ns, not_false_eq_true, true_and]
          rw [ih]
          constructor
          · intro h
            exact ⟨.inr ⟨hg', fun hx => hm ((he cap).1 hx)⟩, h⟩
          · exact fun h => h.2

/-- **C82.** The timer stops exactly when it must: as long as no refresh found the dialog gone and no
`maxFailures` refreshes in a row failed it goes on, and otherwise it reports a stop. -/
theorem C82_stops_iff (maxFailures : Nat) (hm : maxFailures < 2 ^ 32) (os : List Outcome) :
    (∀ x ∈ timerLoop (Nat.max 1 maxFailures) 0 os, ¬ x.stops) ↔
      ∀ pre o post, os = pre ++ o :: post →
        o.ok = true ∨ (o.gone = false ∧ ¬ EndsInFailures (Nat.max 1 maxFailures) (pre ++ [o])) := by
  have h1 : 1 ≤ Nat.max 1 maxFailures := Nat.le_max_left _ _
  have := loop_iff (Nat.max 1 maxFailures) h1 (Nat.max_le.2 ⟨by decide, by unfold MAX_U32; omega⟩) os [] 0 (by omega) (by
    intro m
    constructor
    · rintro ⟨pre, fs, e, rfl, _⟩
      have : fs = [] := by
        have := congrArg List.length e
        simp at this
        exact List.eq_nil_of_length_eq_zero (by omega)
      simp [this]
    · intro h
      exact ⟨[], [], rfl, by simp; omega, by simp⟩)
  simpa using this

/-- **C82.** Every refresh is reported, until the stop, which is the last report; a healthy report is made exactly
for a refresh that was answered with a 2xx. -/
theorem C82_reports (cap : Nat) : ∀ (os : List Outcome) (n : Nat),
    (∀ (i : Nat) (x : TimerState), (timerLoop cap n os)[i]? = some x → ∃ o, os[i]? = some o ∧ (x = .healthy ↔ o.ok = true)) ∧
    (∀ (i : Nat) (x : TimerState), (timerLoop cap n os)[i]? = some x → x.stops → i + 1 = (timerLoop cap n os).length) ∧
    ((∀ x ∈ timerLoop cap n os, ¬ x.stops) → (timerLoop cap n os).length = os.length)
  | [], n => by simp [timerLoop]
  | o :: os, n => by
    unfold timerLoop
    split
    · rename_i hok
      obtain ⟨h1, h2, h3⟩ := C82_reports cap os 0
      refine ⟨?_, ?_, ?_⟩
      · intro i x hx
        cases i with
        | zero => simp only [List.getElem?_cons_zero, Option.some.injEq] at hx; exact ⟨o, rfl, by simp [← hx, hok]⟩
        | succ i => exact h1 i x hx
      · intro i x hx hs
        cases i with
        | zero => simp only [List.getElem?_cons_zero, Option.some.injEq] at hx; rw [← hx] at hs; exact hs.elim
        | succ i => have := h2 i x hx hs; simp; omega
      · intro h
        have := h3 (fun x hx => h x (by simp [hx]))
        simp [this]
    · rename_i hok
      generalize (if n < MAX_U32 then n + 1 else n) = k
      simp only
      split
      · refine ⟨?_, ?_, ?_⟩
        · intro i x hx
          cases i with
          | zero => simp only [List.getElem?_cons_zero, Option.some.injEq] at hx; exact ⟨o, rfl, by simp [← hx, hok]⟩
          | succ i => simp at hx
        · intro i x hx _
          cases i with
          | zero => rfl
          | succ i => simp at hx
        · intro h; exact absurd trivial (h _ (List.mem_singleton.2 rfl))
      · split
        · refine ⟨?_, ?_, ?_⟩
          · intro i x hx
            cases i with
            | zero => simp only [List.getElem?_cons_zero, Option.some.injEq] at hx; exact ⟨o, rfl, by simp [← hx, hok]⟩
            | succ i => simp at hx
          · intro i x hx _
            cases i with
            | zero => rfl
            | succ i => simp at hx
          · intro h; exact absurd trivial (h _ (List.mem_singleton.2 rfl))
        · obtain ⟨h1, h2, h3⟩ := C82_reports cap os k
          refine ⟨?_, ?_, ?_⟩
          · intro i x hx
            cases i with
            | zero => simp only [List.getElem?_cons_zero, Option.some.injEq] at hx; exact ⟨o, rfl, by simp [← hx, hok]⟩
            | succ i => exact h1 i x hx
          · intro i x hx hs
            cases i with
            | zero => simp only [List.getElem?_cons_zero, Option.some.injEq] at hx; rw [← hx] at hs; exact hs.elim
            | succ i => have := h2 i x hx hs; simp; omega
          · intro h
            have := h3 (fun x hx => h x (by simp [hx]))
            simp [this]

/-! ## The hypotheses are met -/

private def uu (s : String) : SipUri := { raw := ("sip:" ++ s).toList, sips := false, user := none, host := s.toList, port := none, params := [], headers := [] }
private def dd : Dialog :=
  Dialog.mk { callId := "c1".toList, localTag := "1".toList, remoteTag := "2".toList } .confirmed (uu "b2") [] 7 3 none (uu "a") (uu "b") true none none true

-- two refreshes and a request of the application interleave; answers arrive out of order
example : (Shared.run dd [.reserve 1, .ownerSend, .reserve 2, .send 2, .send 1, .finish 1 none, .finish 2 none, .ownerSend]).wire =
    [11, 8, 10, 9] := by decide +kernel
example : NoClone [.reserve 1, .ownerSend, .send 1, .finish 1 none] := by
  intro o ho; simp at ho; rcases ho with rfl | rfl | rfl | rfl <;> simp
example : timerLoop 3 0 [⟨true, false⟩, ⟨false, false⟩, ⟨false, false⟩, ⟨true, false⟩, ⟨false, false⟩, ⟨false, false⟩, ⟨false, false⟩] =
    [.healthy, .failing 1, .failing 2, .healthy, .failing 1, .failing 2, .exhausted 3] := by decide

end Siphon.Dlg
