import Verif.Base.Table
/-!
# The session timer manager (C76)

Model of `SessionTimerManager` in `crates/sip-dialog/src/session_timer_manager.rs`: a table of running timers and one task
per timer, in small steps. Callers and tasks run in parallel, so every operation on the table is a step of its own. Time
counts nanoseconds. A task sleeps in a `select!` with the receiving end of its cancel channel; the sending end is in the
table. `recv` is ready when a signal was sent or the sender is gone. `stop_timer` does both, removing or replacing the
entry does the second, so a task can see the cancellation exactly when the table does not have its entry any more. If both
branches of a `select!` are ready, either may be taken.

Not modelled: `subscribe` (one receiver takes all events, which is the log here), the overflow of `Instant + Duration`.
-/
namespace Siphon.Dlg.TimerMgr

set_option linter.unusedSectionVars false

/-- session_timer_manager.rs 51 -/
def MAX_SESSION_TIMERS : Nat := 10000

/-- session_timer_manager.rs 62-71 `SessionTimerEvent`, without the dialog. -/
inductive Kind | refreshNeeded | expired
  deriving DecidableEq, Repr

/-- session_timer_manager.rs 75-80 `SessionTimerTask`: when the session expires, and whose cancel channel it is. -/
structure Entry where
  expiry : Nat
  task : Nat
  deriving DecidableEq, Repr

/-- Where a task is: spawned, in the first `select!` (149-158), in the second (168-179) with the end of its sleep, between
the event and the removal (171-174), finished. -/
inductive Phase
  | fresh
  | refreshing (deadline : Nat)
  | expiring (deadline : Nat)
  | removing
  | done
  deriving DecidableEq, Repr

/-- A task and what it was given. `started` is the time of its insertion. -/
structure Task (D : Type) where
  dialog : D
  interval : Nat
  refresher : Bool
  started : Nat
  phase : Phase
  deriving DecidableEq, Repr

/-- Where a call of `start_timer` is: before the check of the limit, before the insertion, finished. -/
inductive CallPc | check | insert | done
  deriving DecidableEq, Repr

/-- A call of `start_timer` that has stopped the old timer. -/
structure Call (D : Type) where
  dialog : D
  interval : Nat
  refresher : Bool
  pc : CallPc
  deriving DecidableEq, Repr

/-- An event: what, for which dialog, when, and by which task. -/
structure Event (D : Type) where
  kind : Kind
  dialog : D
  time : Nat
  task : Nat
  deriving DecidableEq, Repr

/-- The manager, its tasks and the calls under way. A task is known by its place in `tasks`. -/
structure State (D : Type) where
  now : Nat := 0
  table : Tbl D Entry := []
  tasks : List (Task D) := []
  calls : List (Call D) := []
  log : List (Event D) := []
  deriving DecidableEq, Repr

/-- The steps. -/
inductive Label (D : Type)
  /-- `stop_timer` -/
  | stop (d : D)
  /-- `start_timer` or `refresh_timer`: the old timer is stopped -/
  | call (d : D) (interval : Nat) (refresher : Bool)
  /-- the call looks at the number of timers -/
  | check (i : Nat)
  /-- the call enters the timer and spawns the task -/
  | insert (i : Nat)
  /-- a task runs for the first time -/
  | poll (i : Nat)
  /-- the sleep of a task ends -/
  | fire (i : Nat)
  /-- a task sees its cancellation -/
  | cancel (i : Nat)
  /-- a task that has expired removes its entry -/
  | remove (i : Nat)
  /-- time passes -/
  | tick
  deriving DecidableEq, Repr

variable {D : Type} [DecidableEq D]

/-- The total sleep of a task (session_timer_manager.rs 145, 162-166). -/
def total (interval : Nat) (refresher : Bool) : Nat := if refresher then interval / 2 + interval / 2 else interval

/-- The task has lost its entry. -/
def cancelled (s : State D) (i : Nat) (t : Task D) : Bool :=
  match s.table.get t.dialog with
  | some e => decide (e.task ≠ i)
  | none => true

/-- The task goes to another phase. -/
def setPhase (s : State D) (i : Nat) (t : Task D) (p : Phase) : State D :=
  { s with tasks := s.tasks.set i { t with phase := p } }

/-- One step, if it is possible. -/
def step (s : State D) : Label D → Option (State D)
  -- 188-195 `stop_timer`
  | .stop d => some { s with table := s.table.remove d }
  -- 120 (202-209 for `refresh_timer`)
  | .call d v r => some { s with table := s.table.remove d, calls := s.calls ++ [⟨d, v, r, .check⟩] }
  -- 121-123
  | .check i =>
    match s.calls[i]? with
    | some ⟨d, v, r, .check⟩ =>
      some { s with calls := s.calls.set i ⟨d, v, r, if s.table.length ≥ MAX_SESSION_TIMERS then .done else .insert⟩ }
    | _ => none
  -- 125-142
  | .insert i =>
    match s.calls[i]? with
    | some ⟨d, v, r, .insert⟩ =>
      some { s with calls := s.calls.set i ⟨d, v, r, .done⟩, table := s.table.insert d ⟨s.now + v, s.tasks.length⟩,
                    tasks := s.tasks ++ [⟨d, v, r, s.now, .fresh⟩] }
    | _ => none
  -- 145-149, 162-169: the first sleep begins
  | .poll i =>
    match s.tasks[i]? with
    | some t =>
      if t.phase = .fresh then
        some (setPhase s i t (if t.refresher then .refreshing (s.now + t.interval / 2) else .expiring (s.now + t.interval)))
      else none
    | none => none
  -- 150-153 and the beginning of the second sleep, 169-171
  | .fire i =>
    match s.tasks[i]? with
    | some t =>
      match t.phase with
      | .refreshing dl =>
        if dl ≤ s.now then
          some { setPhase s i t (.expiring (s.now + t.interval / 2)) with
            log := s.log ++ [⟨.refreshNeeded, t.dialog, s.now, i⟩] }
        else none
      | .expiring dl =>
        if dl ≤ s.now then some { setPhase s i t .removing with log := s.log ++ [⟨.expired, t.dialog, s.now, i⟩] } else none
      | _ => none
    | none => none
  -- 154-157, 176-178
  | .cancel i =>
    match s.tasks[i]? with
    | some t =>
      match t.phase with
      | .refreshing _ => if cancelled s i t then some (setPhase s i t .done) else none
      | .expiring _ => if cancelled s i t then some (setPhase s i t .done) else none
      | _ => none
    | none => none
  -- 174
  | .remove i =>
    match s.tasks[i]? with
    | some t =>
      if t.phase = .removing then some { setPhase s i t .done with table := s.table.remove t.dialog } else none
    | none => none
  | .tick => some { s with now := s.now + 1 }

/-- Steps one after the other. -/
def run (s : State D) : List (Label D) → Option (State D)
  | [] => some s
  | l :: ls => match step s l with | some s => run s ls | none => none

/-- session_timer_manager.rs 212-214 `has_timer` -/
def hasTimer (s : State D) (d : D) : Bool := s.table.contains d

/-- session_timer_manager.rs 217-226 `time_remaining` -/
def timeRemaining (s : State D) (d : D) : Option Nat :=
  (s.table.get d).map (fun e => if s.now < e.expiry then e.expiry - s.now else 0)

/-! ## Specification -/

/-- A task has something to do at once. -/
def Busy (s : State D) : Prop := ∃ i, ∃ l ∈ [Label.poll i, .fire i, .cancel i, .remove i], (step s l).isSome = true

/-- Steps in which time passes only when no task has anything to do: the runtime is not overloaded. -/
inductive Prompt : State D → List (Label D) → State D → Prop
  | nil (s) : Prompt s [] s
  | tick {s s' ls} : ¬ Busy s → Prompt { s with now := s.now + 1 } ls s' → Prompt s (.tick :: ls) s'
  | other {s s' s'' l ls} : l ≠ .tick → step s l = some s' → Prompt s' ls s'' → Prompt s (l :: ls) s''

/-- The step is a call about the dialog. -/
def About (d : D) : Label D → Prop
  | .stop d' => d' = d
  | .call d' _ _ => d' = d
  | _ => False

/-- What is reported about a dialog: the kind and the time. -/
def reports (s : State D) (d : D) : List (Kind × Nat) :=
  (s.log.filter (fun e => decide (e.dialog = d))).map (fun e => (e.kind, e.time))

/-- What has to be reported for a timer that starts at `t`. -/
def Schedule (t interval : Nat) (refresher : Bool) : List (Kind × Nat) :=
  if refresher then [(.refreshNeeded, t + interval / 2), (.expired, t + interval / 2 + interval / 2)] else [(.expired, t + interval)]

/-- The timer of the task is not due at this moment. -/
def NotDue (now : Nat) (t : Task D) : Prop :=
  match t.phase with
  | .fresh => 2 ≤ t.interval
  | .refreshing dl => now < dl
  | .expiring dl => now < dl
  | .removing => False
  | .done => True

/-- No timer of the dialog is due at this moment, and no call about it is under way. -/
def Quiet (s : State D) (d : D) : Prop :=
  (∀ t ∈ s.tasks, t.dialog = d → NotDue s.now t) ∧ ∀ c ∈ s.calls, c.dialog = d → c.pc = .done

/-! ## Lemmas -/

theorem run_append (s : State D) (a b : List (Label D)) : run s (a ++ b) = (run s a).bind (fun s => run s b) := by
  induction a generalizing s with
  | nil => rfl
  | cons l a ih =>
    simp only [List.cons_append, run]
    cases step s l with
    | none => rfl
    | some s' => exact ih s'

theorem prompt_run {s s' : State D} {ls : List (Label D)} (h : Prompt s ls s') : run s ls = some s' := by
  induction h with
  | nil => rfl
  | tick _ _ ih => exact ih
  | other _ h1 _ ih => simp only [run, h1, ih]

/-- A property of all steps is a property of all runs. -/
theorem run_induct {P : State D → Prop} (hs : ∀ s s' l, P s → step s l = some s' → P s') {s s' : State D} {ls : List (Label D)}
    (h0 : P s) (h : run s ls = some s') : P s' := by
  induction ls generalizing s with
  | nil => cases h; exact h0
  | cons l ls ih =>
    rw [run] at h
    split at h
    · rename_i s1 h1; exact ih (hs _ _ _ h0 h1) h
    · cases h

theorem getElem?_set_cases {α : Type} {l : List α} {i j : Nat} {a b : α} (h : (l.set i a)[j]? = some b) :
    (j = i ∧ b = a) ∨ (j ≠ i ∧ l[j]? = some b) := by
  by_cases e : i = j
  · subst e
    rw [List.getElem?_set] at h
    simp only [if_true] at h
    split at h
    · cases h; exact .inl ⟨rfl, rfl⟩
    · cases h
  · rw [List.getElem?_set_ne e] at h
    exact .inr ⟨fun x => e x.symm, h⟩

theorem getElem?_snoc_cases {α : Type} {l : List α} {j : Nat} {a b : α} (h : (l ++ [a])[j]? = some b) :
    (j = l.length ∧ b = a) ∨ l[j]? = some b := by
  rw [List.getElem?_append] at h
  split at h
  · exact .inr h
  · rename_i hj
    rw [List.getElem?_singleton] at h
    split at h
    · cases h; exact .inl ⟨by omega, rfl⟩
    · cases h

/-! ## All runs -/

/-- How many times task `i` has reported the kind. -/
def times (s : State D) (k : Kind) (i : Nat) : Nat := (s.log.filter (fun e => decide (e.kind = k ∧ e.task = i))).length

/-- What a task may have reported in its phase. -/
abbrev Counts (s : State D) (i : Nat) (t : Task D) : Prop :=
  match t.phase with
    | .fresh => times s .refreshNeeded i = 0 ∧ times s .expired i = 0
    | .refreshing dl => t.refresher = true ∧ times s .refreshNeeded i = 0 ∧ times s .expired i = 0 ∧ t.started + t.interval / 2 ≤ dl
    | .expiring dl => times s .refreshNeeded i ≤ 1 ∧ times s .expired i = 0 ∧ t.started + total t.interval t.refresher ≤ dl
    | .removing => times s .refreshNeeded i ≤ 1 ∧ times s .expired i ≤ 1
    | .done => times s .refreshNeeded i ≤ 1 ∧ times s .expired i ≤ 1

/-- What holds of the reports of every task in every state. -/
structure Sane (s : State D) : Prop where
  /-- a task's reports are about its dialog, at the right time or later -/
  just : ∀ e ∈ s.log, ∃ t, s.tasks[e.task]? = some t ∧ e.dialog = t.dialog ∧ e.time ≤ s.now ∧
    (e.kind = .refreshNeeded → t.refresher = true ∧ t.started + t.interval / 2 ≤ e.time) ∧
    (e.kind = .expired → t.started + total t.interval t.refresher ≤ e.time)
  /-- and each at most once -/
  count : ∀ (i : Nat) (t : Task D), s.tasks[i]? = some t → t.started ≤ s.now ∧ Counts s i t

theorem times_snoc (log : List (Event D)) (e : Event D) (k : Kind) (i : Nat) :
    ((log ++ [e]).filter (fun e => decide (e.kind = k ∧ e.task = i))).length =
      (log.filter (fun e => decide (e.kind = k ∧ e.task = i))).length + (if e.kind = k ∧ e.task = i then 1 else 0) := by
  rw [List.filter_append, List.length_append]
  by_cases h : e.kind = k ∧ e.task = i
  · simp [h]
  · simp [h]

theorem sane_tasks {s s' : State D} (h : Sane s) (hlog : s'.log = s.log) (hnow : s.now ≤ s'.now)
    (hold : ∀ (i : Nat) (t : Task D), s.tasks[i]? = some t → ∃ p, s'.tasks[i]? = some { t with phase := p })
    (hnew : ∀ (i : Nat) (t : Task D), s'.tasks[i]? = some t → (s.tasks[i]? = some t) ∨ (t.started ≤ s'.now ∧ Counts s i t)) : Sane s' := by
  have ht : ∀ k i, times s' k i = times s k i := fun k i => by unfold times; rw [hlog]
  constructor
  · intro e he
    rw [hlog] at he
    obtain ⟨t, h1, h2, h3, h4, h5⟩ := h.just e he
    obtain ⟨p, hp⟩ := hold _ _ h1
    exact ⟨_, hp, h2, Nat.le_trans h3 hnow, h4, h5⟩
  · intro i t hi
    simp only [Counts, ht]
    rcases hnew i t hi with hi | hi
    · have := h.count i t hi
      exact ⟨Nat.le_trans this.1 hnow, this.2⟩
    · exact hi

theorem set_old {s : State D} {i : Nat} {t : Task D} (hi : s.tasks[i]? = some t) (p : Phase) (j : Nat) (u : Task D)
    (hj : s.tasks[j]? = some u) : ∃ q, (s.tasks.set i { t with phase := p })[j]? = some { u with phase := q } := by
  by_cases e : i = j
  · subst e
    rw [hi] at hj
    cases hj
    refine ⟨p, ?_⟩
    rw [List.getElem?_set]
    simp [(List.getElem?_eq_some_iff.1 hi).1]
  · exact ⟨u.phase, by rw [List.getElem?_set_ne e]; exact hj⟩

theorem times_zero_of_new {s : State D} (h : Sane s) {i : Nat} (hi : s.tasks.length ≤ i) (k : Kind) : times s k i = 0 := by
  unfold times
  rw [List.length_eq_zero_iff, List.filter_eq_nil_iff]
  intro e he
  obtain ⟨t, h1, _⟩ := h.just e he
  have := (List.getElem?_eq_some_iff.1 h1).1
  simp only [decide_eq_true_eq, not_and]
  intro _ e2
  omega

theorem sane_step (s s' : State D) (l : Label D) (h : Sane s) (hs : step s l = some s') : Sane s' := by
  cases l with
  | stop d => cases hs; exact sane_tasks h rfl (Nat.le_refl _) (fun i t hi => ⟨t.phase, hi⟩) (fun i t hi => .inl hi)
  | call d v r => cases hs; exact sane_tasks h rfl (Nat.le_refl _) (fun i t hi => ⟨t.phase, hi⟩) (fun i t hi => .inl hi)
  | tick => cases hs; exact sane_tasks h rfl (Nat.le_succ _) (fun i t hi => ⟨t.phase, hi⟩) (fun i t hi => .inl hi)
  | check i =>
    simp only [step] at hs
    split at hs
    · cases hs; exact sane_tasks h rfl (Nat.le_refl _) (fun i t hi => ⟨t.phase, hi⟩) (fun i t hi => .inl hi)
    · cases hs
  | insert i =>
    simp only [step] at hs
    split at hs
    · cases hs
      refine sane_tasks h rfl (Nat.le_refl _) ?_ ?_
      · intro j t hj
        refine ⟨t.phase, ?_⟩
        simp only
        rw [List.getElem?_append_left (List.getElem?_eq_some_iff.1 hj).1]
        exact hj
      · intro j t hj
        rcases getElem?_snoc_cases hj with ⟨rfl, rfl⟩ | hj
        · exact .inr ⟨Nat.le_refl _, times_zero_of_new h (Nat.le_refl _) _, times_zero_of_new h (Nat.le_refl _) _⟩
        · exact .inl hj
    · cases hs
  | poll i =>
    simp only [step] at hs
    split at hs
    · rename_i t hi
      split at hs
      · rename_i hp
        cases hs
        have hc := h.count i t hi
        unfold Counts at hc
        rw [hp] at hc
        refine sane_tasks h rfl (Nat.le_refl _) (set_old hi _) ?_
        intro j u hj
        rcases getElem?_set_cases hj with ⟨rfl, rfl⟩ | ⟨_, hj⟩
        · right
          refine ⟨hc.1, ?_⟩
          cases hr : t.refresher
          · simp only [Bool.false_eq_true, if_false]
            refine ⟨by omega, hc.2.2, ?_⟩
            simp only [total, Bool.false_eq_true, if_false]
            have := hc.1; omega
          · simp only [if_true]
            refine ⟨rfl, hc.2.1, hc.2.2, ?_⟩
            have := hc.1; simp only; omega
        · exact .inl hj
      · cases hs
    · cases hs
  | cancel i =>
    simp only [step] at hs
    split at hs
    · rename_i t hi
      have hc := h.count i t hi
      unfold Counts at hc
      split at hs
      · rename_i dl hp
        rw [hp] at hc
        split at hs
        · cases hs
          refine sane_tasks h rfl (Nat.le_refl _) (set_old hi _) ?_
          intro j u hj
          rcases getElem?_set_cases hj with ⟨rfl, rfl⟩ | ⟨_, hj⟩
          · exact .inr ⟨hc.1, by simp only [Counts]; omega⟩
          · exact .inl hj
        · cases hs
      · rename_i dl hp
        rw [hp] at hc
        split at hs
        · cases hs
          refine sane_tasks h rfl (Nat.le_refl _) (set_old hi _) ?_
          intro j u hj
          rcases getElem?_set_cases hj with ⟨rfl, rfl⟩ | ⟨_, hj⟩
          · exact .inr ⟨hc.1, by simp only [Counts]; omega⟩
          · exact .inl hj
        · cases hs
      · cases hs
    · cases hs
  | remove i =>
    simp only [step] at hs
    split at hs
    · rename_i t hi
      have hc := h.count i t hi
      unfold Counts at hc
      split at hs
      · rename_i hp
        rw [hp] at hc
        cases hs
        refine sane_tasks h rfl (Nat.le_refl _) (set_old hi _) ?_
        intro j u hj
        rcases getElem?_set_cases hj with ⟨rfl, rfl⟩ | ⟨_, hj⟩
        · exact .inr ⟨hc.1, hc.2⟩
        · exact .inl hj
      · cases hs
    · cases hs
  | fire i =>
    simp only [step] at hs
    split at hs
    · rename_i t hi
      have hc := h.count i t hi
      unfold Counts at hc
      split at hs
      · rename_i dl hp
        rw [hp] at hc
        simp only at hc
        split at hs
        · rename_i hdl
          cases hs
          constructor
          · intro e he
            rcases List.mem_append.1 he with he | he
            · obtain ⟨u, h1, h2, h3, h4, h5⟩ := h.just e he
              obtain ⟨p, hp⟩ := set_old hi (.expiring (s.now + t.interval / 2)) _ _ h1
              exact ⟨_, hp, h2, h3, h4, h5⟩
            · simp only [List.mem_cons, List.not_mem_nil, or_false] at he
              subst he
              obtain ⟨p, hp⟩ := set_old hi (.expiring (s.now + t.interval / 2)) i t hi
              exact ⟨_, hp, rfl, Nat.le_refl _, fun _ => ⟨hc.2.1, by simp only; omega⟩, fun e => by cases e⟩
          · intro j u hj
            rcases getElem?_set_cases hj with ⟨rfl, rfl⟩ | ⟨hne, hj⟩
            · refine ⟨hc.1, ?_⟩
              simp only [Counts, times, times_snoc]
              have h1 := hc.2.2.1
              have h2 := hc.2.2.2.1
              unfold times at h1 h2
              rw [h1, h2]
              refine ⟨by simp, by simp, ?_⟩
              simp only [total, hc.2.1, if_true]
              omega
            · have hcu := h.count j u hj
              have ht : ∀ k, times { setPhase s i t (.expiring (s.now + t.interval / 2)) with
                  log := s.log ++ [⟨.refreshNeeded, t.dialog, s.now, i⟩] } k j = times s k j := by
                intro k
                simp only [times, times_snoc]
                rw [if_neg (by rintro ⟨_, e⟩; exact hne e.symm)]
                rfl
              simp only [Counts, ht]
              exact hcu
        · cases hs
      · rename_i dl hp
        rw [hp] at hc
        simp only at hc
        split at hs
        · rename_i hdl
          cases hs
          constructor
          · intro e he
            rcases List.mem_append.1 he with he | he
            · obtain ⟨u, h1, h2, h3, h4, h5⟩ := h.just e he
              obtain ⟨p, hp⟩ := set_old hi .removing _ _ h1
              exact ⟨_, hp, h2, h3, h4, h5⟩
            · simp only [List.mem_cons, List.not_mem_nil, or_false] at he
              subst he
              obtain ⟨p, hp⟩ := set_old hi .removing i t hi
              exact ⟨_, hp, rfl, Nat.le_refl _, (fun e => by cases e), fun _ => Nat.le_trans hc.2.2.2 hdl⟩
          · intro j u hj
            rcases getElem?_set_cases hj with ⟨rfl, rfl⟩ | ⟨hne, hj⟩
            · refine ⟨hc.1, ?_⟩
              simp only [Counts, times, times_snoc]
              have h1 := hc.2.1
              have h2 := hc.2.2.1
              unfold times at h1 h2
              rw [h2]
              exact ⟨by simpa using h1, by simp⟩
            · have hcu := h.count j u hj
              have ht : ∀ k, times { setPhase s i t .removing with
                  log := s.log ++ [⟨.expired, t.dialog, s.now, i⟩] } k j = times s k j := by
                intro k
                simp only [times, times_snoc]
                rw [if_neg (by rintro ⟨_, e⟩; exact hne e.symm)]
                rfl
              simp only [Counts, ht]
              exact hcu
        · cases hs
      · cases hs
    · cases hs

theorem sane_init : Sane ({} : State D) := ⟨by simp, by simp⟩

/-- C76: in every run, however callers, tasks and time mix: every report comes from a timer that was started for that
dialog; a refresh is asked for only by a refresher and not before half the interval, the end is reported not before the
whole interval (to the nanosecond, two halves of it), and each timer reports each of them at most once. -/
theorem C76_justified (ls : List (Label D)) (s : State D) (h : run {} ls = some s) :
    (∀ e ∈ s.log, ∃ t, s.tasks[e.task]? = some t ∧ e.dialog = t.dialog ∧
      (e.kind = .refreshNeeded → t.refresher = true ∧ t.started + t.interval / 2 ≤ e.time) ∧
      (e.kind = .expired → t.started + (if t.refresher then t.interval / 2 + t.interval / 2 else t.interval) ≤ e.time)) ∧
    ∀ k i, (s.log.filter (fun e => decide (e.kind = k ∧ e.task = i))).length ≤ 1 := by
  have hs : Sane s := run_induct sane_step sane_init h
  constructor
  · intro e he
    obtain ⟨t, h1, h2, _, h4, h5⟩ := hs.just e he
    exact ⟨t, h1, h2, h4, h5⟩
  · intro k i
    by_cases hi : i < s.tasks.length
    · obtain ⟨t, ht⟩ : ∃ t, s.tasks[i]? = some t := ⟨_, List.getElem?_eq_getElem hi⟩
      have hc := (hs.count i t ht).2
      unfold Counts at hc
      have key : times s k i ≤ 1 := by
        cases k <;> cases hp : t.phase <;> rw [hp] at hc <;> simp only at hc <;> omega
      exact key
    · have := times_zero_of_new hs (Nat.le_of_not_lt hi) k
      unfold times at this
      omega


/-! ## Prompt runs -/

/-- What keeps the tasks of a dialog silent, except perhaps one. -/
structure Calm (s : State D) (d : D) (skip : Option Nat) : Prop where
  own : ∀ e, s.table.get d = some e → some e.task = skip
  tasks : ∀ j t, s.tasks[j]? = some t → t.dialog = d → some j ≠ skip → NotDue s.now t
  calls : ∀ c ∈ s.calls, c.dialog = d → c.pc = .done

theorem calm_cancelled {s : State D} {d : D} {skip : Option Nat} (h : Calm s d skip) {j : Nat} {t : Task D}
    (ht : t.dialog = d) (hj : some j ≠ skip) : cancelled s j t = true := by
  unfold cancelled
  rw [ht]
  split
  · rename_i e he
    have := h.own e he
    rw [decide_eq_true_eq]
    rintro rfl
    exact hj this
  · rfl

/-- A task that is not done and may be cancelled keeps the runtime busy. -/
theorem calm_idle {s : State D} {d : D} {skip : Option Nat} (h : Calm s d skip) (hb : ¬ Busy s) {j : Nat} {t : Task D}
    (hj : s.tasks[j]? = some t) (ht : t.dialog = d) (hs : some j ≠ skip) : t.phase = .done := by
  have hn := h.tasks j t hj ht hs
  have hc := calm_cancelled h ht hs
  cases hp : t.phase with
  | fresh => exact absurd ⟨j, .poll j, by simp, by simp [step, hj, hp]⟩ hb
  | refreshing dl => exact absurd ⟨j, .cancel j, by simp, by simp [step, hj, hp, hc]⟩ hb
  | expiring dl => exact absurd ⟨j, .cancel j, by simp, by simp [step, hj, hp, hc]⟩ hb
  | removing => unfold NotDue at hn; rw [hp] at hn; exact hn.elim
  | done => rfl

/-- A step of a task: where it was and where it goes. -/
theorem calm_set {s : State D} {d : D} {skip : Option Nat} (h : Calm s d skip) {i : Nat} {t : Task D} (hi : s.tasks[i]? = some t)
    (p : Phase) (hp : t.dialog = d → some i ≠ skip → NotDue s.now { t with phase := p }) :
    ∀ j u, (s.tasks.set i { t with phase := p })[j]? = some u → u.dialog = d → some j ≠ skip → NotDue s.now u := by
  intro j u hj hu hs
  rcases getElem?_set_cases hj with ⟨rfl, rfl⟩ | ⟨_, hj⟩
  · exact hp hu hs
  · exact h.tasks j u hj hu hs

theorem calm_step {s s' : State D} {d : D} {skip : Option Nat} (h : Calm s d skip) {l : Label D} (ha : ¬ About d l)
    (hl : l ≠ .tick) (hs : step s l = some s') : Calm s' d skip := by
  cases l with
  | tick => exact absurd rfl hl
  | stop d' =>
    cases hs
    have hne : d ≠ d' := fun e => ha e.symm
    exact ⟨by simp only; rw [Tbl.get_remove_ne _ hne]; exact h.own, h.tasks, h.calls⟩
  | call d' v r =>
    cases hs
    have hne : d ≠ d' := fun e => ha e.symm
    refine ⟨by simp only; rw [Tbl.get_remove_ne _ hne]; exact h.own, h.tasks, ?_⟩
    intro c hc hcd
    rcases List.mem_append.1 hc with hc | hc
    · exact h.calls c hc hcd
    · simp only [List.mem_cons, List.not_mem_nil, or_false] at hc
      subst hc
      exact absurd hcd (Ne.symm hne)
  | check i =>
    simp only [step] at hs
    split at hs
    · rename_i d' v r hi
      cases hs
      refine ⟨h.own, h.tasks, ?_⟩
      intro c hc hcd
      rcases List.mem_or_eq_of_mem_set hc with hc | rfl
      · exact h.calls c hc hcd
      · have := h.calls _ (List.mem_of_getElem? hi) hcd
        cases this
    · cases hs
  | insert i =>
    simp only [step] at hs
    split at hs
    · rename_i d' v r hi
      cases hs
      have hne : d ≠ d' := by
        rintro rfl
        have := h.calls _ (List.mem_of_getElem? hi) rfl
        cases this
      refine ⟨by simp only; rw [Tbl.get_insert_ne _ _ hne]; exact h.own, ?_, ?_⟩
      · intro j t hj ht hsk
        rcases getElem?_snoc_cases hj with ⟨rfl, rfl⟩ | hj
        · exact absurd ht (Ne.symm hne)
        · exact h.tasks j t hj ht hsk
      · intro c hc hcd
        rcases List.mem_or_eq_of_mem_set hc with hc | rfl
        · exact h.calls c hc hcd
        · rfl
    · cases hs
  | poll i =>
    simp only [step] at hs
    split at hs
    · rename_i t hi
      split at hs
      · rename_i hp
        cases hs
        refine ⟨h.own, calm_set h hi _ ?_, h.calls⟩
        intro ht hsk
        have hn := h.tasks i t hi ht hsk
        unfold NotDue at hn ⊢
        rw [hp] at hn
        simp only at hn
        cases t.refresher
        · simp only [Bool.false_eq_true, if_false]; omega
        · simp only [if_true]; omega
      · cases hs
    · cases hs
  | fire i =>
    simp only [step] at hs
    split at hs
    · rename_i t hi
      split at hs
      · rename_i dl hp
        split at hs
        · rename_i hdl
          cases hs
          refine ⟨h.own, calm_set h hi _ ?_, h.calls⟩
          intro ht hsk
          have hn := h.tasks i t hi ht hsk
          unfold NotDue at hn
          rw [hp] at hn
          simp only at hn
          omega
        · cases hs
      · rename_i dl hp
        split at hs
        · rename_i hdl
          cases hs
          refine ⟨h.own, calm_set h hi _ ?_, h.calls⟩
          intro ht hsk
          have hn := h.tasks i t hi ht hsk
          unfold NotDue at hn
          rw [hp] at hn
          simp only at hn
          omega
        · cases hs
      · cases hs
    · cases hs
  | cancel i =>
    simp only [step] at hs
    split at hs
    · rename_i t hi
      split at hs
      · split at hs
        · cases hs; exact ⟨h.own, calm_set h hi _ (fun _ _ => trivial), h.calls⟩
        · cases hs
      · split at hs
        · cases hs; exact ⟨h.own, calm_set h hi _ (fun _ _ => trivial), h.calls⟩
        · cases hs
      · cases hs
    · cases hs
  | remove i =>
    simp only [step] at hs
    split at hs
    · rename_i t hi
      split at hs
      · cases hs
        refine ⟨?_, calm_set h hi _ (fun _ _ => trivial), h.calls⟩
        intro e he
        simp only at he
        by_cases hd : d = t.dialog
        · rw [← hd, Tbl.get_remove_self] at he; cases he
        · rw [Tbl.get_remove_ne _ hd] at he; exact h.own e he
      · cases hs
    · cases hs

theorem calm_tick {s : State D} {d : D} {skip : Option Nat} (h : Calm s d skip) (hb : ¬ Busy s) :
    Calm { s with now := s.now + 1 } d skip := by
  refine ⟨h.own, ?_, h.calls⟩
  intro j t hj ht hs
  have := calm_idle h hb hj ht hs
  unfold NotDue
  rw [this]
  trivial

theorem reports_snoc (log : List (Event D)) (e : Event D) (d : D) :
    ((log ++ [e]).filter (fun e => decide (e.dialog = d))).map (fun e => (e.kind, e.time)) =
      (log.filter (fun e => decide (e.dialog = d))).map (fun e => (e.kind, e.time)) ++
        (if e.dialog = d then [(e.kind, e.time)] else []) := by
  rw [List.filter_append, List.map_append]
  by_cases h : e.dialog = d <;> simp [h]

/-- Only the excepted task can report. -/
theorem calm_reports {s s' : State D} {d : D} {skip : Option Nat} (h : Calm s d skip) {l : Label D} (hs : step s l = some s') :
    reports s' d = reports s d ∨ ∃ i, l = .fire i ∧ some i = skip := by
  cases l with
  | fire i =>
    by_cases hsk : some i = skip
    · exact .inr ⟨i, rfl, hsk⟩
    left
    simp only [step] at hs
    split at hs
    · rename_i t hi
      have hnd : t.dialog = d → NotDue s.now t := fun ht => h.tasks i t hi ht hsk
      split at hs
      · rename_i dl hp
        split at hs
        · rename_i hdl
          cases hs
          simp only [reports, reports_snoc]
          rw [if_neg]
          · simp
          · intro e
            have := hnd e
            unfold NotDue at this
            rw [hp] at this
            simp only at this
            omega
        · cases hs
      · rename_i dl hp
        split at hs
        · rename_i hdl
          cases hs
          simp only [reports, reports_snoc]
          rw [if_neg]
          · simp
          · intro e
            have := hnd e
            unfold NotDue at this
            rw [hp] at this
            simp only at this
            omega
        · cases hs
      · cases hs
    · cases hs
  | stop _ => left; cases hs; rfl
  | call _ _ _ => left; cases hs; rfl
  | tick => left; cases hs; rfl
  | check i => left; simp only [step] at hs; split at hs <;> cases hs; rfl
  | insert i => left; simp only [step] at hs; split at hs <;> cases hs; rfl
  | poll i =>
    left; simp only [step] at hs
    split at hs
    · split at hs <;> cases hs; rfl
    · cases hs
  | cancel i =>
    left; simp only [step] at hs
    split at hs
    · split at hs
      · split at hs <;> cases hs; rfl
      · split at hs <;> cases hs; rfl
      · cases hs
    · cases hs
  | remove i =>
    left; simp only [step] at hs
    split at hs
    · split at hs <;> cases hs; rfl
    · cases hs

/-- C76: after `stop_timer`, at a moment when no timer of the dialog is due, nothing is reported about the dialog until it
is started again, as long as the runtime is prompt; and there is no timer. -/
theorem C76_stopped (s s1 s2 : State D) (d : D) (hq : Quiet s d) (h1 : step s (.stop d) = some s1) (ls : List (Label D))
    (hl : ∀ l ∈ ls, ¬ About d l) (hp : Prompt s1 ls s2) : reports s2 d = reports s d ∧ hasTimer s2 d = false := by
  cases h1
  have h0 : Calm { s with table := s.table.remove d } d none :=
    ⟨(by simp only; rw [Tbl.get_remove_self]; intro e he; cases he),
      fun j t hj ht _ => hq.1 t (List.mem_of_getElem? hj) ht, hq.2⟩
  have hr : reports { s with table := s.table.remove d } d = reports s d := rfl
  rw [← hr]
  clear hr hq
  generalize ({ s with table := s.table.remove d } : State D) = s0 at *
  induction hp with
  | nil s =>
    refine ⟨rfl, ?_⟩
    unfold hasTimer Tbl.contains
    cases hg : s.table.get d with
    | none => rfl
    | some e => have := h0.own e hg; cases this
  | tick hb _ ih =>
    have := ih (fun l hm => hl l (List.mem_cons_of_mem _ hm)) (calm_tick h0 hb)
    exact this
  | @other s s' s'' l ls hne hs _ ih =>
    have := ih (fun l hm => hl l (List.mem_cons_of_mem _ hm)) (calm_step h0 (hl l (by simp)) hne hs)
    rcases calm_reports h0 hs with e | ⟨i, _, e⟩
    · rw [e] at this; exact this
    · cases e

/-- The state of the task `m` that was entered for `d` at time `t0`, when `base` had been reported. -/
def Main (s : State D) (d : D) (m t0 v : Nat) (r : Bool) (base : List (Kind × Nat)) : Prop :=
  ∃ t, s.tasks[m]? = some t ∧ t.dialog = d ∧ t.interval = v ∧ t.refresher = r ∧
    match t.phase with
    | .fresh => s.now = t0 ∧ reports s d = base ∧ s.table.get d = some ⟨t0 + v, m⟩
    | .refreshing dl => r = true ∧ dl = t0 + v / 2 ∧ s.now ≤ dl ∧ reports s d = base ∧ s.table.get d = some ⟨t0 + v, m⟩
    | .expiring dl => dl = t0 + total v r ∧ s.now ≤ dl ∧
        reports s d = base ++ (if r then [(.refreshNeeded, t0 + v / 2)] else []) ∧ s.table.get d = some ⟨t0 + v, m⟩
    | .removing => s.now = t0 + total v r ∧ reports s d = base ++ Schedule t0 v r
    | .done => t0 + total v r ≤ s.now ∧ reports s d = base ++ Schedule t0 v r ∧ s.table.get d = none

theorem main_tick {s : State D} {d : D} {m t0 v : Nat} {r : Bool} {base : List (Kind × Nat)} (h : Main s d m t0 v r base)
    (hb : ¬ Busy s) : Main { s with now := s.now + 1 } d m t0 v r base := by
  obtain ⟨t, h1, h2, h3, h4, h5⟩ := h
  refine ⟨t, h1, h2, h3, h4, ?_⟩
  have hrep : reports { s with now := s.now + 1 } d = reports s d := rfl
  rw [hrep]
  cases hp : t.phase with
  | fresh => exact absurd ⟨m, .poll m, by simp, by simp [step, h1, hp]⟩ hb
  | refreshing dl =>
    rw [hp] at h5
    simp only at h5 ⊢
    have : s.now ≠ dl := fun e => hb ⟨m, .fire m, by simp, by simp [step, h1, hp, e]⟩
    refine ⟨h5.1, h5.2.1, by omega, h5.2.2.2.1, h5.2.2.2.2⟩
  | expiring dl =>
    rw [hp] at h5
    simp only at h5 ⊢
    have : s.now ≠ dl := fun e => hb ⟨m, .fire m, by simp, by simp [step, h1, hp, e]⟩
    exact ⟨h5.1, by omega, h5.2.2⟩
  | removing => exact absurd ⟨m, .remove m, by simp, by simp [step, h1, hp]⟩ hb
  | done =>
    rw [hp] at h5
    simp only at h5 ⊢
    exact ⟨by omega, h5.2⟩

/-- Nothing that matters to the task has changed. -/
theorem main_same {s s' : State D} {d : D} {m t0 v : Nat} {r : Bool} {base : List (Kind × Nat)} (h : Main s d m t0 v r base)
    (hn : s'.now = s.now) (ht : s'.tasks[m]? = s.tasks[m]?) (hr : reports s' d = reports s d)
    (hg : s'.table.get d = s.table.get d) : Main s' d m t0 v r base := by
  unfold Main at h ⊢
  rw [ht, hn, hr, hg]
  exact h

theorem set_main {s : State D} {i m : Nat} {t : Task D} (hne : i ≠ m) (p : Phase) :
    (setPhase s i t p).tasks[m]? = s.tasks[m]? := by
  unfold setPhase
  exact List.getElem?_set_ne hne

theorem set_self {s : State D} {i : Nat} {t : Task D} (hi : s.tasks[i]? = some t) (p : Phase) :
    (s.tasks.set i { t with phase := p })[i]? = some { t with phase := p } := by
  rw [List.getElem?_set]
  simp [(List.getElem?_eq_some_iff.1 hi).1]

theorem main_step {s s' : State D} {d : D} {m t0 v : Nat} {r : Bool} {base : List (Kind × Nat)} (hc : Calm s d (some m))
    (h : Main s d m t0 v r base) {l : Label D} (ha : ¬ About d l) (hl : l ≠ .tick) (hs : step s l = some s') :
    Main s' d m t0 v r base := by
  obtain ⟨t, h1, h2, h3, h4, h5⟩ := h
  have hm : Main s d m t0 v r base := ⟨t, h1, h2, h3, h4, h5⟩
  have hrep := calm_reports hc hs
  cases l with
  | tick => exact absurd rfl hl
  | stop d' =>
    cases hs
    exact main_same hm rfl rfl rfl (Tbl.get_remove_ne _ (fun e => ha e.symm))
  | call d' v' r' =>
    cases hs
    exact main_same hm rfl rfl rfl (Tbl.get_remove_ne _ (fun e => ha e.symm))
  | check i =>
    simp only [step] at hs
    split at hs
    · cases hs; exact main_same hm rfl rfl rfl rfl
    · cases hs
  | insert i =>
    simp only [step] at hs
    split at hs
    · rename_i d' v' r' hi
      cases hs
      have hne : d ≠ d' := by
        rintro rfl
        have := hc.calls _ (List.mem_of_getElem? hi) rfl
        cases this
      refine main_same hm rfl ?_ rfl (Tbl.get_insert_ne _ _ hne)
      simp only
      exact List.getElem?_append_left (List.getElem?_eq_some_iff.1 h1).1
    · cases hs
  | poll i =>
    simp only [step] at hs
    split at hs
    · rename_i u hi
      split at hs
      · rename_i hp
        cases hs
        by_cases e : i = m
        · subst e
          rw [h1] at hi
          cases hi
          rw [hp] at h5
          simp only at h5
          refine ⟨_, set_self h1 _, h2, h3, h4, ?_⟩
          have hr2 : ∀ p, reports (setPhase s i t p) d = reports s d := fun _ => rfl
          rw [h4, h3]
          cases r
          · simp only [Bool.false_eq_true, if_false, hr2]
            refine ⟨by simp [total, h5.1], by simp [setPhase, total], by simp [h5.2.1], h5.2.2⟩
          · simp only [if_true, hr2]
            exact ⟨trivial, by rw [h5.1], by simp [setPhase], h5.2.1, h5.2.2⟩
        · exact main_same hm rfl (List.getElem?_set_ne e) rfl rfl
      · cases hs
    · cases hs
  | cancel i =>
    have hne : i ≠ m ∨ i = m := by omega
    simp only [step] at hs
    split at hs
    · rename_i u hi
      split at hs
      · rename_i dl hp
        split at hs
        · rename_i hcan
          cases hs
          refine main_same hm rfl (List.getElem?_set_ne ?_) rfl rfl
          rintro rfl
          rw [h1] at hi
          cases hi
          rw [hp] at h5
          unfold cancelled at hcan
          rw [h2, h5.2.2.2.2] at hcan
          simp at hcan
        · cases hs
      · rename_i dl hp
        split at hs
        · rename_i hcan
          cases hs
          refine main_same hm rfl (List.getElem?_set_ne ?_) rfl rfl
          rintro rfl
          rw [h1] at hi
          cases hi
          rw [hp] at h5
          unfold cancelled at hcan
          rw [h2, h5.2.2.2] at hcan
          simp at hcan
        · cases hs
      · cases hs
    · cases hs
  | remove i =>
    simp only [step] at hs
    split at hs
    · rename_i u hi
      split at hs
      · rename_i hp
        cases hs
        by_cases e : i = m
        · subst e
          rw [h1] at hi
          cases hi
          rw [hp] at h5
          simp only at h5
          refine ⟨_, set_self h1 _, h2, h3, h4, ?_⟩
          simp only
          refine ⟨by simp [setPhase, h5.1], h5.2, ?_⟩
          rw [h2]
          exact Tbl.get_remove_self _ _
        · refine main_same hm rfl (List.getElem?_set_ne e) rfl ?_
          refine Tbl.get_remove_ne _ ?_
          intro hd
          have := hc.tasks i u hi hd.symm (by simpa using e)
          unfold NotDue at this
          rw [hp] at this
          exact this
      · cases hs
    · cases hs
  | fire i =>
    by_cases e : i = m
    · subst e
      simp only [step] at hs
      split at hs
      · rename_i u hi
        rw [h1] at hi
        cases hi
        split at hs
        · rename_i dl hp
          rw [hp] at h5
          simp only at h5
          obtain ⟨hr, hdl, hle, hb, hg⟩ := h5
          split at hs
          · rename_i hfire
            cases hs
            refine ⟨_, set_self h1 _, h2, h3, h4, ?_⟩
            have hnow : s.now = t0 + v / 2 := by omega
            have hr2 : reports { setPhase s i t (.expiring (s.now + t.interval / 2)) with
                log := s.log ++ [⟨.refreshNeeded, t.dialog, s.now, i⟩] } d = base ++ [(.refreshNeeded, t0 + v / 2)] := by
              simp only [reports, reports_snoc, h2, if_true, hnow]
              rw [← hb]
              rfl
            simp only
            rw [hr2]
            refine ⟨?_, ?_, by simp [hr], hg⟩
            · simp only [total, hr, if_true, h3, hnow]; omega
            · simp only [setPhase, total, hr, if_true]; omega
          · cases hs
        · rename_i dl hp
          rw [hp] at h5
          simp only at h5
          obtain ⟨hdl, hle, hb, hg⟩ := h5
          split at hs
          · rename_i hfire
            cases hs
            refine ⟨_, set_self h1 _, h2, h3, h4, ?_⟩
            have hnow : s.now = t0 + total v r := by omega
            have hr2 : reports { setPhase s i t .removing with
                log := s.log ++ [⟨.expired, t.dialog, s.now, i⟩] } d = base ++ Schedule t0 v r := by
              simp only [reports, reports_snoc, h2, if_true, hnow]
              have hb' : (s.log.filter (fun e => decide (e.dialog = d))).map (fun e => (e.kind, e.time)) =
                base ++ (if r then [(.refreshNeeded, t0 + v / 2)] else []) := hb
              have e1 : (List.filter (fun e => decide (e.dialog = d)) (setPhase s i t .removing).log) =
                List.filter (fun e => decide (e.dialog = d)) s.log := rfl
              rw [hb']
              cases r
              · simp [Schedule, total]
              · simp [Schedule, total, Nat.add_assoc]
            simp only
            exact ⟨hnow, hr2⟩
          · cases hs
        · cases hs
      · cases hs
    · rcases hrep with hrep | ⟨j, hj, hk⟩
      · have htab : s'.table = s.table ∧ s'.now = s.now ∧ s'.tasks[m]? = s.tasks[m]? := by
          simp only [step] at hs
          split at hs
          · split at hs
            · split at hs
              · cases hs; exact ⟨rfl, rfl, List.getElem?_set_ne e⟩
              · cases hs
            · split at hs
              · cases hs; exact ⟨rfl, rfl, List.getElem?_set_ne e⟩
              · cases hs
            · cases hs
          · cases hs
        exact main_same hm htab.2.1 htab.2.2 hrep (by rw [htab.1])
      · cases hj
        cases hk
        exact absurd rfl e

theorem main_prompt {s s' : State D} {d : D} {m t0 v : Nat} {r : Bool} {base : List (Kind × Nat)} {ls : List (Label D)}
    (hp : Prompt s ls s') (hl : ∀ l ∈ ls, ¬ About d l) (hc : Calm s d (some m)) (h : Main s d m t0 v r base) :
    Main s' d m t0 v r base := by
  induction hp with
  | nil => exact h
  | tick hb _ ih => exact ih (fun l hm => hl l (List.mem_cons_of_mem _ hm)) (calm_tick hc hb) (main_tick h hb)
  | other hne hs _ ih =>
    have ha := hl _ (List.mem_cons_self ..)
    exact ih (fun l hm => hl l (List.mem_cons_of_mem _ hm)) (calm_step hc ha hne hs) (main_step hc h ha hne hs)

/-- C76: a timer that is started at a moment when no older timer of its dialog is due, and neither stopped nor started again,
reports exactly its schedule: the refresh at half the interval if this side refreshes, the end at the whole interval,
neither early nor late nor twice. Until the end there is a timer and it tells the right remaining time; after the end there
is none. (The calls of other dialogs, the tasks and time mix in any way in which the runtime is prompt.) -/
theorem C76_on_time (s s1 s2 : State D) (d : D) (v : Nat) (r : Bool) (hq : Quiet s d) (hroom : (s.table.remove d).length < 10000)
    (h1 : run s [.call d v r, .check s.calls.length, .insert s.calls.length] = some s1) (ls : List (Label D))
    (hl : ∀ l ∈ ls, ¬ About d l) (hp : Prompt s1 ls s2) :
    ∃ k, reports s2 d = reports s d ++ (Schedule s.now v r).take k ∧ (∀ e ∈ (Schedule s.now v r).drop k, s2.now ≤ e.2) ∧
      (k < (Schedule s.now v r).length → hasTimer s2 d = true ∧ timeRemaining s2 d = some (s.now + v - s2.now)) ∧
      ((∀ e ∈ Schedule s.now v r, e.2 < s2.now) → hasTimer s2 d = false) := by
  have hlen : ¬ (s.table.remove d).length ≥ MAX_SESSION_TIMERS := by unfold MAX_SESSION_TIMERS; omega
  have hs1 : s1 = { s with
      table := (s.table.remove d).insert d ⟨s.now + v, s.tasks.length⟩
      tasks := s.tasks ++ [⟨d, v, r, s.now, .fresh⟩]
      calls := s.calls ++ [⟨d, v, r, .done⟩] } := by
    simp only [run, step] at h1
    rw [List.getElem?_concat_length] at h1
    simp only [hlen, if_false] at h1
    simp only [List.set_append_right _ _ (Nat.le_refl _), Nat.sub_self, List.set_cons_zero, List.getElem?_concat_length] at h1
    cases h1
    rfl
  subst hs1
  have hcalm : Calm { s with
      table := (s.table.remove d).insert d ⟨s.now + v, s.tasks.length⟩
      tasks := s.tasks ++ [⟨d, v, r, s.now, .fresh⟩]
      calls := s.calls ++ [⟨d, v, r, .done⟩] } d (some s.tasks.length) := by
    refine ⟨?_, ?_, ?_⟩
    · intro e he
      simp only [Tbl.get_insert_self, Option.some.injEq] at he
      subst he
      rfl
    · intro j t hj ht hne
      rcases getElem?_snoc_cases hj with ⟨rfl, rfl⟩ | hj
      · exact absurd rfl hne
      · exact hq.1 t (List.mem_of_getElem? hj) ht
    · intro c hc hcd
      rcases List.mem_append.1 hc with hc | hc
      · exact hq.2 c hc hcd
      · simp only [List.mem_cons, List.not_mem_nil, or_false] at hc
        subst hc
        rfl
  have hmain := main_prompt (base := reports s d) (t0 := s.now) (v := v) (r := r) hp hl hcalm
    ⟨⟨d, v, r, s.now, .fresh⟩, List.getElem?_concat_length .., rfl, rfl, rfl, rfl, rfl, Tbl.get_insert_self _ _ _⟩
  obtain ⟨t, _, _, _, _, h5⟩ := hmain
  have hrem : ∀ m, s2.table.get d = some ⟨s.now + v, m⟩ →
      hasTimer s2 d = true ∧ timeRemaining s2 d = some (s.now + v - s2.now) := by
    intro m hg
    refine ⟨by simp [hasTimer, Tbl.contains, hg], ?_⟩
    unfold timeRemaining
    rw [hg]
    simp only [Option.map_some, Option.some.injEq]
    split <;> omega
  have hlate : s2.now ≤ s.now + total v r → ¬ ∀ e ∈ Schedule s.now v r, e.2 < s2.now := by
    intro hle hall
    cases r
    · have := hall (.expired, s.now + v) (by simp [Schedule])
      simp only [total, Bool.false_eq_true, if_false] at hle this
      omega
    · have := hall (.expired, s.now + v / 2 + v / 2) (by simp [Schedule])
      simp only [total, if_true] at hle this
      omega
  cases hph : t.phase with
  | fresh =>
    rw [hph] at h5
    simp only at h5
    refine ⟨0, by simp [h5.2.1], ?_, fun _ => hrem _ h5.2.2, fun hall => absurd hall (hlate (by omega))⟩
    intro e he
    rw [h5.1]
    cases r
    · simp only [Schedule, Bool.false_eq_true, if_false, List.drop_zero, List.mem_cons, List.not_mem_nil, or_false] at he
      subst he; simp only; omega
    · simp only [Schedule, if_true, List.drop_zero, List.mem_cons, List.not_mem_nil, or_false] at he
      rcases he with rfl | rfl <;> simp only <;> omega
  | refreshing dl =>
    rw [hph] at h5
    simp only at h5
    obtain ⟨rfl, hdl, hle, hb, hg⟩ := h5
    refine ⟨0, by simp [hb], ?_, fun _ => hrem _ hg, fun hall => absurd hall (hlate (by simp only [total, if_true]; omega))⟩
    intro e he
    simp only [Schedule, if_true, List.drop_zero, List.mem_cons, List.not_mem_nil, or_false] at he
    rcases he with rfl | rfl <;> simp only <;> omega
  | expiring dl =>
    rw [hph] at h5
    simp only at h5
    obtain ⟨hdl, hle, hb, hg⟩ := h5
    refine ⟨if r then 1 else 0, ?_, ?_, fun _ => hrem _ hg, fun hall => absurd hall (hlate (by omega))⟩
    · rw [hb]; cases r <;> simp [Schedule]
    · intro e he
      cases r
      · simp only [Schedule, Bool.false_eq_true, if_false, List.drop_zero, List.mem_cons, List.not_mem_nil, or_false] at he
        subst he
        simp only [total, Bool.false_eq_true, if_false] at hdl
        simp only; omega
      · simp only [Schedule, if_true, List.drop_succ_cons, List.drop_zero, List.mem_cons, List.not_mem_nil, or_false] at he
        subst he
        simp only [total, if_true] at hdl
        simp only; omega
  | removing =>
    rw [hph] at h5
    simp only at h5
    refine ⟨(Schedule s.now v r).length, by rw [h5.2, List.take_length], by simp, fun h => absurd h (Nat.lt_irrefl _),
      fun hall => absurd hall (hlate (by omega))⟩
  | done =>
    rw [hph] at h5
    simp only at h5
    refine ⟨(Schedule s.now v r).length, by rw [h5.2.1, List.take_length], by simp, fun h => absurd h (Nat.lt_irrefl _),
      fun _ => by simp [hasTimer, Tbl.contains, h5.2.2]⟩

/-- The hypotheses are met: a dialog whose older timer runs starts a new one at 3, and the refresh at 5 and the end at 7 are
reported; another dialog's timer runs beside it. -/
example : ∃ s s1 s2 : State Nat, run {} [.call 1 9 false, .check 0, .insert 0, .poll 0, .tick, .tick, .tick] = some s ∧
    Quiet s 1 ∧ (s.table.remove 1).length < 10000 ∧ run s [.call 1 4 true, .check s.calls.length, .insert s.calls.length] = some s1 ∧
    Prompt s1 [.call 2 50 true, .cancel 0, .poll 1, .tick, .tick, .fire 1, .tick, .tick, .fire 1, .remove 1] s2 ∧
    reports s2 1 = [(.refreshNeeded, 5), (.expired, 7)] ∧ hasTimer s2 1 = false := by
  have hnb : ∀ s : State Nat, (∀ i t, s.tasks[i]? = some t → t.phase ≠ .fresh ∧ t.phase ≠ .removing ∧
      (∀ dl, t.phase = .refreshing dl ∨ t.phase = .expiring dl → s.now < dl ∧ cancelled s i t = false)) → ¬ Busy s := by
    rintro s h ⟨i, l, hl, hs⟩
    simp only [List.mem_cons, List.not_mem_nil, or_false] at hl
    cases ht : s.tasks[i]? with
    | none => rcases hl with rfl | rfl | rfl | rfl <;> simp [step, ht] at hs
    | some t =>
      obtain ⟨h1, h2, h3⟩ := h i t ht
      rcases hl with rfl | rfl | rfl | rfl
      · simp [step, ht, h1] at hs
      · cases hp : t.phase with
        | refreshing dl => have := (h3 dl (.inl hp)).1; simp [step, ht, hp, Nat.not_le.2 this] at hs
        | expiring dl => have := (h3 dl (.inr hp)).1; simp [step, ht, hp, Nat.not_le.2 this] at hs
        | _ => simp [step, ht, hp] at hs
      · cases hp : t.phase with
        | refreshing dl => have := (h3 dl (.inl hp)).2; simp [step, ht, hp, this] at hs
        | expiring dl => have := (h3 dl (.inr hp)).2; simp [step, ht, hp, this] at hs
        | _ => simp [step, ht, hp] at hs
      · simp [step, ht, h2] at hs
  have two : ∀ (P : Nat → Task Nat → Prop) (a b : Task Nat), P 0 a → P 1 b → ∀ i t, [a, b][i]? = some t → P i t := by
    intro P a b ha hb i t ht
    match i, ht with
    | 0, ht => cases ht; exact ha
    | 1, ht => cases ht; exact hb
    | i + 2, ht => simp at ht
  have q : ∀ (P : Task Nat → Prop) (a : Task Nat), P a → ∀ t ∈ [a], P t := by
    intro P a ha t ht
    simp only [List.mem_cons, List.not_mem_nil, or_false] at ht
    subst ht
    exact ha
  refine ⟨⟨3, [(1, ⟨9, 0⟩)], [⟨1, 9, false, 0, .expiring 9⟩], [⟨1, 9, false, .done⟩], []⟩, _,
    ⟨7, [], [⟨1, 9, false, 0, .done⟩, ⟨1, 4, true, 3, .done⟩],
      [⟨1, 9, false, .done⟩, ⟨1, 4, true, .done⟩, ⟨2, 50, true, .check⟩],
      [⟨.refreshNeeded, 1, 5, 1⟩, ⟨.expired, 1, 7, 1⟩]⟩, rfl, ⟨q _ _ (fun _ => (by decide : 3 < 9)), by decide⟩, by decide, rfl, ?_, ?_, ?_⟩
  · refine .other (by simp) rfl (.other (by simp) rfl (.other (by simp) rfl (.tick ?_ (.tick ?_ (.other (by simp) rfl
      (.tick ?_ (.tick ?_ (.other (by simp) rfl (.other (by simp) rfl ?_)))))))))
    · exact hnb _ (two _ _ _ (by simp) (by refine ⟨by decide, by decide, ?_⟩; intro dl h; rcases h with h | h <;> cases h <;> decide))
    · exact hnb _ (two _ _ _ (by simp) (by refine ⟨by decide, by decide, ?_⟩; intro dl h; rcases h with h | h <;> cases h <;> decide))
    · exact hnb _ (two _ _ _ (by simp) (by refine ⟨by decide, by decide, ?_⟩; intro dl h; rcases h with h | h <;> cases h <;> decide))
    · exact hnb _ (two _ _ _ (by simp) (by refine ⟨by decide, by decide, ?_⟩; intro dl h; rcases h with h | h <;> cases h <;> decide))
    · exact .nil _
  · decide
  · decide

/-! ## What the code does not do -/

/-- C76, finding: a session refreshed at the moment its timer expires is left without a timer. The task that expires removes
the entry of the new timer, the new task takes this for its cancellation, and neither a refresh nor the end of the new
interval is ever reported. -/
theorem C76_expiry_race : ∃ s : State Nat,
    run {} [.call 1 2 false, .check 0, .insert 0, .poll 0, .tick, .tick, .fire 0, .call 1 1800 true, .check 1, .insert 1,
      .remove 0, .poll 1, .cancel 1] = some s ∧
    reports s 1 = [(.expired, 2)] ∧ hasTimer s 1 = false ∧ (∀ t ∈ s.tasks, t.phase = .done) ∧ (∀ c ∈ s.calls, c.pc = .done) :=
  ⟨_, rfl, by decide, by decide, by decide, by decide⟩

/-- C76, finding: a timer that was stopped may still report its expiry, when the runtime lets the task run late. -/
theorem C76_late : ∃ s : State Nat,
    run {} [.call 1 2 false, .check 0, .insert 0, .poll 0, .tick, .tick, .stop 1, .tick, .fire 0] = some s ∧
    hasTimer s 1 = false ∧ reports s 1 = [(.expired, 3)] := ⟨_, rfl, by decide, by decide⟩

/-- C76, finding: with 10 000 timers of other dialogs, starting a timer does nothing, and the caller is not told. If the
dialog had a timer it is stopped all the same. -/
theorem C76_full (s s' : State D) (d : D) (v : Nat) (r : Bool) (hfull : 10000 ≤ (s.table.remove d).length)
    (h : run s [.call d v r, .check s.calls.length] = some s') :
    hasTimer s' d = false ∧ s'.tasks = s.tasks ∧ step s' (.insert s.calls.length) = none := by
  have hge : (s.table.remove d).length ≥ MAX_SESSION_TIMERS := by unfold MAX_SESSION_TIMERS; omega
  simp only [run, step] at h
  rw [List.getElem?_concat_length] at h
  simp only [hge, if_true] at h
  simp only [List.set_append_right _ _ (Nat.le_refl _), Nat.sub_self, List.set_cons_zero] at h
  cases h
  refine ⟨by simp [hasTimer, Tbl.contains, Tbl.get_remove_self], rfl, ?_⟩
  simp only [step, List.getElem?_concat_length]

/-- Ten thousand timers can be reached. -/
theorem reach (n : Nat) (hn : n ≤ 10000) : ∃ (ls : List (Label Nat)) (s : State Nat), run {} ls = some s ∧ s.table.length = n ∧
    (∀ k ∈ s.table.keys, k < n) ∧ s.calls.length = n := by
  induction n with
  | zero => exact ⟨[], {}, rfl, rfl, by simp [Tbl.keys], rfl⟩
  | succ n ih =>
    obtain ⟨ls, s, h1, h2, h3, h4⟩ := ih (by omega)
    have hrem : s.table.remove n = s.table := Tbl.remove_of_not_mem _ _ (fun h => absurd (h3 n h) (Nat.lt_irrefl _))
    refine ⟨ls ++ [.call n 5 true, .check n, .insert n],
      { s with
        table := s.table.insert n ⟨s.now + 5, s.tasks.length⟩
        tasks := s.tasks ++ [⟨n, 5, true, s.now, .fresh⟩]
        calls := s.calls ++ [⟨n, 5, true, .done⟩] }, ?_, ?_, ?_, ?_⟩
    · rw [run_append, h1]
      simp only [Option.bind_some, run, step, hrem]
      have hlt : ¬ s.table.length ≥ MAX_SESSION_TIMERS := by unfold MAX_SESSION_TIMERS; omega
      rw [← h4]
      rw [List.getElem?_concat_length]
      simp only [hlt, if_false]
      simp only [List.set_append_right _ _ (Nat.le_refl _), Nat.sub_self, List.set_cons_zero, List.getElem?_concat_length]
    · simp only [Tbl.insert, hrem, List.length_cons, h2]
    · intro k hk
      simp only [Tbl.insert, hrem, Tbl.keys, List.map_cons, List.mem_cons] at hk
      rcases hk with rfl | hk
      · omega
      · have := h3 k hk; omega
    · simp [h4]

example : ∃ (ls : List (Label Nat)) (s : State Nat), run {} ls = some s ∧ 10000 ≤ (s.table.remove 20000).length := by
  obtain ⟨ls, s, h1, h2, h3, _⟩ := reach 10000 (Nat.le_refl _)
  refine ⟨ls, s, h1, ?_⟩
  rw [Tbl.remove_of_not_mem _ _ (fun h => absurd (h3 20000 h) (by decide)), h2]
  exact Nat.le_refl _

end Siphon.Dlg.TimerMgr
