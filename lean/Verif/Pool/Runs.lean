import Verif.Pool.Effect
set_option linter.unusedSimpArgs false
set_option linter.unusedSectionVars false
/-!
# Lemmas: locks, calm runs, slots
-/
namespace Siphon.Pool
variable {K : Type} [DecidableEq K]

/-! ## A call that waits holds its entry -/

theorem not_free {cfg : Cfg K} {s : State K} {i : Nat} {key k k' : K} {c : Nat} {f : Bool}
    (ht : s.tasks[i]? = some ⟨key, .waiting k c f⟩) (hk : cfg.shard k' = cfg.shard k) : free cfg s k' = false := by
  simp only [free, Bool.not_eq_false', List.any_eq_true]
  exact ⟨_, List.mem_of_getElem? ht, by simp [holds, hk]⟩

theorem not_allFree {s : State K} {i : Nat} {key k : K} {c : Nat} {f : Bool}
    (ht : s.tasks[i]? = some ⟨key, .waiting k c f⟩) : allFree s = false := by
  simp only [allFree, Bool.not_eq_false', List.any_eq_true]
  exact ⟨_, List.mem_of_getElem? ht, rfl⟩

def Guarded (s : State K) : Prop := ∀ (i : Nat) (key k : K) (c : Nat) (f : Bool), s.tasks[i]? = some ⟨key, .waiting k c f⟩ →
  ∃ e, Tbl.get s.map k = some e ∧ e.conn = c

theorem setPc_self {s : State K} {i : Nat} {t : Task K} {pc : Pc K} {u : Task K} (ht : s.tasks[i]? = some t)
    (h : (s.setPc i pc).tasks[i]? = some u) : u = ⟨t.key, pc⟩ := by
  simp only [State.setPc] at h
  rw [get_modify_iff] at h
  obtain ⟨a, ha, hb⟩ := h
  rw [ht] at ha
  cases ha
  simpa using hb

theorem offer_self {s w cl : State K} {i c : Nat} {t u : Task K} (ht : s.tasks[i]? = some t)
    (h : (s.offer i c w cl).tasks[i]? = some u) : w.tasks[i]? = some u ∨ cl.tasks[i]? = some u ∨ u = ⟨t.key, .done (some c)⟩ := by
  unfold State.offer at h
  split at h
  · exact Or.inr (Or.inl h)
  · split at h
    · split at h
      · unfold State.push at h
        exact Or.inr (Or.inr (setPc_self (by rw [setConn_tasks]; exact ht) h))
      · exact Or.inl h
    · exact Or.inr (Or.inl h)

theorem self_waiting {cfg : Cfg K} {s s' : State K} {i : Nat} {ok : Bool} {hint : Option K} {key k : K} {c : Nat} {f : Bool}
    (hs : taskStep cfg s i ok hint = some s') (h : s'.tasks[i]? = some ⟨key, .waiting k c f⟩) :
    s.tasks[i]? = some ⟨key, .waiting k c f⟩ ∨ ∃ e, Tbl.get s'.map k = some e ∧ e.conn = c := by
  unfold taskStep at hs
  split at hs
  · cases hs
  · rename_i key' k' first ht
    split at hs
    · cases hs
    · split at hs
      · cases hs
        have := setPc_self ht h
        cases first <;> cases this
      · rename_i e he
        cases hs
        right
        rcases offer_self (s := s.touch k') (t := ⟨key', .look k' first⟩) ht h with h | h | h
        · have := setPc_self (s := s.touch k') (t := ⟨key', .look k' first⟩) ht h
          cases this
          rw [offer_map (s := s.touch _) (by rfl) (by rfl)]
          exact stays_touch s k k e he
        · have := setPc_self (s := s.touch k') (t := ⟨key', .look k' first⟩) ht h
          cases this
        · cases h
  · rename_i key' k' c' first ht
    cases hs
    rcases offer_self ht h with h | h | h
    · exact Or.inl h
    · have := setPc_self ht h
      cases this
    · cases h
  · rename_i key' k' first ht
    split at hs
    · cases hs
    · cases hs
      have := setPc_self (by rw [removeKey_tasks]; exact ht) h
      cases first <;> cases this
  · rename_i key' ht
    split at hs
    · split at hs
      · cases hs
        have := setPc_self ht h
        cases this
      · cases hs
    · split at hs
      · cases hs
      · cases hs
        have := setPc_self ht h
        cases this
  · rename_i key' n ht
    split at hs
    · cases hs
      have := setPc_self (s := { s with avail := s.avail - 1 }) ht h
      cases this
    · split at hs <;> cases hs <;> (have := setPc_self ht h; cases this)
  · rename_i key' ht
    split at hs
    · cases hs
    · cases hs
      have := setPc_self (s := cleanup cfg s) (t := ⟨key', .clean⟩) (by unfold cleanup; rw [removeKeys_tasks]; exact ht) h
      cases this
  · rename_i key' ht
    split at hs
    · cases hs
    · cases hs
      have := setPc_self ht h
      cases this
  · rename_i key' ht
    cases hs
    have := setPc_self ht h
    cases this
  · rename_i key' k' ks ht
    split at hs
    · cases hs
    · cases hs
      have := setPc_self (by rw [removeKey_tasks]; exact ht) h
      cases this
  · rename_i key' ht
    split at hs
    · cases hs
      have := setPc_self (s := { s with conns := s.conns ++ [({ key := key' } : Conn K)] }) ht h
      cases this
    · cases hs
      have := setPc_self (s := { s with avail := s.avail + 1 }) ht h
      cases this
  · rename_i key' c' ht
    split at hs
    · cases hs
    · cases hs
      have := setPc_self (by rw [insertKey_tasks]; exact ht) h
      cases this
  · rename_i key' c' ht
    cases hs
    rcases offer_self ht h with h | h | h
    · exact Or.inl h
    · have := setPc_self ht h
      cases this
    · cases h
  · rename_i key' ht
    split at hs
    · cases hs
    · cases hs
      have := setPc_self (by rw [removeKey_tasks]; exact ht) h
      cases this
  · cases hs

/-- A call in the new state was there before, or is a new one, or has made the step. -/
theorem step_tasks {cfg : Cfg K} {s s' : State K} {a : Act K} {j : Nat} {u : Task K} (hs : step cfg s a = some s')
    (hu : s'.tasks[j]? = some u) : s.tasks[j]? = some u ∨ (∃ k, a = .call k ∧ u = ⟨k, .look k true⟩ ∧ s.tasks[j]? = none) ∨
      ∃ ok hint, a = .task j ok hint ∧ ∃ t, s.tasks[j]? = some t := by
  cases ht : s.tasks[j]? with
  | some t =>
    by_cases ha : ∃ ok hint, a = .task j ok hint
    · obtain ⟨ok, hint, ha⟩ := ha
      exact Or.inr (Or.inr ⟨ok, hint, ha, t, rfl⟩)
    · have := step_other ht (fun ok hint h => ha ⟨ok, hint, h⟩) hs
      rw [hu] at this
      exact Or.inl this.symm
  | none =>
    cases a with
    | call k =>
      cases hs
      simp only at hu
      rw [List.getElem?_append_right ((List.getElem?_eq_none_iff).mp ht)] at hu
      have := List.mem_of_getElem? hu
      rw [List.mem_singleton] at this
      exact Or.inr (Or.inl ⟨k, rfl, this, rfl⟩)
    | task i ok hint =>
      by_cases hij : i = j
      · subst hij
        simp only [step, taskStep] at hs
        rw [ht] at hs
        cases hs
      · have := taskStep_other hij hs
        rw [ht, hu] at this
        cases this
    | write c =>
      simp only [step] at hs
      split at hs
      · cases hs
      · split at hs <;> cases hs
        rw [setConn_tasks, ht] at hu
        cases hu
    | exit c =>
      simp only [step] at hs
      split at hs
      · cases hs
      · split at hs <;> cases hs
        rw [setConn_tasks, ht] at hu
        cases hu
    | cancel c =>
      simp only [step] at hs
      split at hs
      · cases hs
      · split at hs <;> cases hs
        rw [setConn_tasks, ht] at hu
        cases hu
    | supervise c =>
      simp only [step] at hs
      split at hs
      · cases hs
      · split at hs <;> cases hs
        simp only [supervise, setConn_tasks, removeKey_tasks] at hu
        rw [ht] at hu
        cases hu
    | cleanup =>
      simp only [step] at hs
      split at hs <;> cases hs
      unfold cleanup at hu
      rw [removeKeys_tasks, ht] at hu
      cases hu
    | tick d =>
      cases hs
      rw [ht] at hu
      cases hu

theorem step_guarded {cfg : Cfg K} {s s' : State K} {a : Act K} (hn : (Tbl.keys s.map).Nodup) (h : Guarded s)
    (hs : step cfg s a = some s') : Guarded s' := by
  intro i key k c f hi
  have old : s.tasks[i]? = some ⟨key, .waiting k c f⟩ → ∃ e, Tbl.get s'.map k = some e ∧ e.conn = c := by
    intro hi'
    obtain ⟨e, he, hc⟩ := h i key k c f hi'
    rcases step_stays hn he hs with ⟨e', h1, h2⟩ | ⟨_, h2⟩
    · exact ⟨e', h1, by rw [h2, hc]⟩
    · rw [not_free hi' rfl] at h2
      cases h2
  rcases step_tasks hs hi with hi' | ⟨k', _, hu, _⟩ | ⟨ok, hint, rfl, _⟩
  · exact old hi'
  · cases hu
  · rcases self_waiting hs hi with hi' | h'
    · exact old hi'
    · exact h'

theorem reach_guarded {cfg : Cfg K} {s : State K} (h : Reach cfg s) : Guarded s := by
  obtain ⟨as, h⟩ := h
  refine (run_inv (P := fun s => Guarded s ∧ Counted cfg s)
    (fun s a s' hp hs => ⟨step_guarded hp.2.nodup hp.1 hs, step_counted hp.2 hs⟩) as _ _ ?_ h).1
  refine ⟨?_, reach_counted ⟨[], rfl⟩⟩
  intro i key k c f hi
  simp [init] at hi

theorem reach_step {cfg : Cfg K} {s s' : State K} {a : Act K} (h : Reach cfg s) (hs : step cfg s a = some s') : Reach cfg s' := by
  obtain ⟨as, h⟩ := h
  refine ⟨as ++ [a], ?_⟩
  have : ∀ (as : List (Act K)) (s0 : State K), run cfg s0 as = some s → run cfg s0 (as ++ [a]) = some s' := by
    intro as
    induction as with
    | nil =>
      intro s0 h0
      cases h0
      simp [run, hs]
    | cons b as ih =>
      intro s0 h0
      simp only [run, List.cons_append] at h0 ⊢
      cases hb : step cfg s0 b with
      | none => rw [hb] at h0; cases h0
      | some s1 =>
        rw [hb] at h0
        exact ih s1 h0
  exact this as _ h

theorem reach_run {cfg : Cfg K} : ∀ (as : List (Act K)) {s s' : State K}, Reach cfg s → run cfg s as = some s' → Reach cfg s'
  | [], s, s', h, hr => by cases hr; exact h
  | a :: as, s, s', h, hr => by
    simp only [run] at hr
    cases hx : step cfg s a with
    | none => rw [hx] at hr; cases hr
    | some s1 =>
      rw [hx] at hr
      exact reach_run as (reach_step h hx) hr

/-- An entry's connection has not been told to stop. -/
theorem entry_live {s : State K} (h : Owned s) {k : K} {e : Entry} (he : Tbl.get s.map k = some e) : live s.conns e.conn = true := by
  have h1 := mapOwn_pos s.map k e he
  have h2 := h e.conn
  cases hl : live s.conns e.conn with
  | true => rfl
  | false => rw [hl] at h2; simp at h2; omega

/-! ## A peer that does not read -/

structure Stuck (s : State K) (i : Nat) (key k : K) (c : Nat) (f : Bool) : Prop where
  task : s.tasks[i]? = some ⟨key, .waiting k c f⟩
  conn : ∃ x, s.conns[c]? = some x ∧ x.writer = .running ∧ x.aborted = false ∧ CHANNEL ≤ x.queue.length

theorem step_stuck {cfg : Cfg K} {s s' : State K} {a : Act K} {i : Nat} {key k : K} {c : Nat} {f : Bool} (hr : Reach cfg s)
    (h : Stuck s i key k c f) (h1 : a ≠ .write c) (h2 : a ≠ .exit c) (hs : step cfg s a = some s') : Stuck s' i key k c f := by
  obtain ⟨x, hx, hw, hab, hq⟩ := h.conn
  constructor
  · by_cases ha : ∃ ok hint, a = .task i ok hint
    · obtain ⟨ok, hint, rfl⟩ := ha
      simp only [step, taskStep] at hs
      rw [h.task] at hs
      simp only [State.offer, hx, hw] at hs
      rw [if_neg (by omega)] at hs
      cases hs
      exact h.task
    · exact step_other h.task (fun ok hint he => ha ⟨ok, hint, he⟩) hs
  · obtain ⟨x', hx', he⟩ := step_effect (reach_counted hr).nodup hx hs
    refine ⟨x', hx', ?_, ?_, ?_⟩
    · rcases he.writer with h3 | ⟨_, ⟨h3, _⟩ | ⟨_, h3, _⟩⟩
      · rw [h3, hw]
      · exact absurd h3 h2
      · rw [hab] at h3; cases h3
    · rcases he.aborted with h3 | ⟨k', e, h4, h5, _, h6⟩
      · rw [h3, hab]
      · obtain ⟨e', h7, h8⟩ := reach_guarded hr i key k c f h.task
        have ha := (reach_deliver hr).entry k' e h4
        have hb := (reach_deliver hr).entry k e' h7
        rw [h5] at ha
        rw [h8] at hb
        obtain ⟨y, hy, hyk⟩ := ha
        obtain ⟨z, hz, hzk⟩ := hb
        rw [hy] at hz
        cases hz
        rw [← hyk, hzk, not_free h.task rfl] at h6
        cases h6
    · have := (he.queue h1).length_le
      omega

/-! ## Calm runs -/

/-- What holds of a call in a calm run. -/
def Settled (m : Tbl K Entry) (t : Task K) : Prop :=
  match t.pc with
  | .look k true => k = t.key
  | .waiting k _ true => k = t.key
  | .look _ false => Tbl.get m t.key = none
  | .waiting _ _ false => Tbl.get m t.key = none
  | .search => Tbl.get m t.key = none
  | .acquire n => n = 0 ∧ Tbl.get m t.key = none
  | .connecting => Tbl.get m t.key = none
  | .connected _ => Tbl.get m t.key = none
  | .sending _ => True
  | .done _ => True
  | .failed _ _ => False
  | .clean => False
  | .snapshot => False
  | .evict _ => False
  | .closed => False

structure Quiet (s : State K) : Prop where
  conns : ∀ (c : Nat) (x : Conn K), s.conns[c]? = some x → x.writer = .running ∧ x.aborted = false ∧ x.supervised = false
  tasks : ∀ (i : Nat) (t : Task K), s.tasks[i]? = some t → Settled s.map t
  keys : (s.conns.map (·.key)).Nodup

theorem quiet_noCause {cfg : Cfg K} {s : State K} (h : Quiet s) {a : Act K} (ha : a ≠ .cleanup) {k : K} {e : Entry}
    (he : Tbl.get s.map k = some e) : ¬ Cause cfg s a k := by
  intro hc
  cases hc with
  | idle => exact ha rfl
  | idleSlot h1 h2 h3 => exact h.tasks _ _ h3
  | evicted h1 => exact h.tasks _ _ h1
  | replaced h1 =>
    have : Tbl.get s.map k = none := h.tasks _ _ h1
    rw [he] at this
    cases this
  | failed h1 => exact h.tasks _ _ h1
  | closed h1 => exact h.tasks _ _ h1
  | ended h1 h2 h3 => exact h3 (h.conns _ _ h1).1

theorem offer_running {s w cl : State K} {i c : Nat} (h : ∃ x, s.conns[c]? = some x ∧ x.writer = .running) :
    s.offer i c w cl = s.push c i ∨ s.offer i c w cl = w := by
  obtain ⟨x, hx, hr⟩ := h
  unfold State.offer
  rw [hx]
  simp only [hr]
  split
  · exact Or.inl rfl
  · exact Or.inr rfl

/-- What a step of a call does to the map and to the call, in a calm run. -/
theorem quiet_task {cfg : Cfg K} {s s' : State K} {i : Nat} {ok : Bool} {hint : Option K} (hr : Reach cfg s) (h : Quiet s)
    (hav : 0 < s.avail) (hs : taskStep cfg s i ok hint = some s') (u : Task K) (hu : s'.tasks[i]? = some u) :
    Settled s'.map u ∧ ∀ k, Tbl.get s.map k = none → Tbl.get s'.map k = none ∨ k = u.key := by
  have hd := reach_deliver hr
  have hrun : ∀ c k, At s.conns c k → ∃ x, s.conns[c]? = some x ∧ x.writer = .running := by
    rintro c k ⟨x, h1, _⟩
    exact ⟨x, h1, (h.conns c x h1).1⟩
  have upd : ∀ (k k' : K), Tbl.get s.map k = none → Tbl.get (s.touch k').map k = none := by
    intro k k' hk
    unfold State.touch
    simp only
    by_cases hkk : k = k'
    · subst hkk
      rw [Tbl.get_update_self, hk]
      rfl
    · rw [Tbl.get_update_ne _ _ hkk]
      exact hk
  have quit : ∀ {t : Task K}, s.tasks[i]? = some t → Settled s.map t := fun ht => h.tasks i _ ht
  unfold taskStep at hs
  split at hs
  · cases hs
  · rename_i key k first ht
    have hq := quit ht
    split at hs
    · cases hs
    · split at hs
      · rename_i hk
        cases hs
        have hu' := setPc_self ht hu
        subst hu'
        refine ⟨?_, fun k hk => Or.inl hk⟩
        cases first with
        | true =>
          have : k = key := hq
          subst this
          exact hk
        | false => exact ⟨rfl, hq⟩
      · rename_i e he
        cases hs
        have hx := hrun _ _ (hd.entry k e he)
        rcases offer_running (s := s.touch k) (i := i) (w := (s.touch k).setPc i (.waiting k e.conn first))
          (cl := (s.touch k).setPc i (.failed k first)) (c := e.conn) hx with ho | ho
        · rw [ho] at hu ⊢
          have hu' := setPc_self (s := (s.touch k).setConn _ _) (t := ⟨key, .look k first⟩) ht hu
          subst hu'
          exact ⟨trivial, fun k' hk => Or.inl (upd k' k hk)⟩
        · rw [ho] at hu ⊢
          have hu' := setPc_self (s := s.touch k) (t := ⟨key, .look k first⟩) ht hu
          subst hu'
          refine ⟨?_, fun k' hk => Or.inl (upd k' k hk)⟩
          cases first with
          | true => exact hq
          | false => exact upd _ _ hq
  · rename_i key k c first ht
    have hq := quit ht
    cases hs
    have hx := hrun _ _ (hd.pcs i _ ht).2
    rcases offer_running (s := s) (i := i) (w := s) (cl := s.setPc i (.failed k first)) (c := c) hx with ho | ho
    · rw [ho] at hu ⊢
      have hu' := setPc_self (s := s.setConn _ _) ht hu
      subst hu'
      exact ⟨trivial, fun k' hk => Or.inl hk⟩
    · rw [ho] at hu ⊢
      rw [ht] at hu
      cases hu
      exact ⟨hq, fun k' hk => Or.inl hk⟩
  · rename_i ht
    exact (quit ht).elim
  · rename_i key ht
    have hq : Tbl.get s.map key = none := quit ht
    split at hs
    · split at hs
      · cases hs
        have hu' := setPc_self ht hu
        subst hu'
        exact ⟨hq, fun k hk => Or.inl hk⟩
      · cases hs
    · split at hs
      · cases hs
      · cases hs
        have hu' := setPc_self ht hu
        subst hu'
        exact ⟨⟨rfl, hq⟩, fun k hk => Or.inl hk⟩
  · rename_i key n ht
    have hq : n = 0 ∧ Tbl.get s.map key = none := quit ht
    rw [if_pos hav] at hs
    cases hs
    have hu' := setPc_self (s := { s with avail := s.avail - 1 }) ht hu
    subst hu'
    exact ⟨hq.2, fun k hk => Or.inl hk⟩
  · rename_i ht
    exact (quit ht).elim
  · rename_i ht
    exact (quit ht).elim
  · rename_i ht
    exact (quit ht).elim
  · rename_i ht
    exact (quit ht).elim
  · rename_i key ht
    have hq : Tbl.get s.map key = none := quit ht
    split at hs
    · cases hs
      have hu' := setPc_self (s := { s with conns := s.conns ++ [({ key := key } : Conn K)] }) ht hu
      subst hu'
      exact ⟨hq, fun k hk => Or.inl hk⟩
    · cases hs
      have hu' := setPc_self (s := { s with avail := s.avail + 1 }) ht hu
      subst hu'
      exact ⟨trivial, fun k hk => Or.inl hk⟩
  · rename_i key c ht
    have hq : Tbl.get s.map key = none := quit ht
    split at hs
    · cases hs
    · cases hs
      have hu' := setPc_self (by rw [insertKey_tasks]; exact ht) hu
      subst hu'
      refine ⟨trivial, fun k hk => ?_⟩
      by_cases hkk : k = key
      · exact Or.inr hkk
      · left
        unfold State.insertKey
        simp only [setPc_map]
        rw [Tbl.get_insert_ne _ _ hkk, removeKey_map, Tbl.get_remove_ne _ hkk]
        exact hk
  · rename_i key c ht
    cases hs
    have hx := hrun _ _ (hd.pcs i _ ht)
    rcases offer_running (s := s) (i := i) (w := s) (cl := s.setPc i .closed) (c := c) hx with ho | ho
    · rw [ho] at hu ⊢
      have hu' := setPc_self (s := s.setConn _ _) ht hu
      subst hu'
      exact ⟨trivial, fun k' hk => Or.inl hk⟩
    · rw [ho] at hu ⊢
      rw [ht] at hu
      cases hu
      exact ⟨trivial, fun k' hk => Or.inl hk⟩
  · rename_i ht
    exact (quit ht).elim
  · cases hs

theorem settled_pending {m m' : Tbl K Entry} {t : Task K} (h : Settled m t) (hk : pending t = true → Tbl.get m t.key = none → Tbl.get m' t.key = none) :
    Settled m' t := by
  obtain ⟨key, pc⟩ := t
  cases pc with
  | look k f => cases f with
    | true => exact h
    | false => exact hk rfl h
  | waiting k c f => cases f with
    | true => exact h
    | false => exact hk rfl h
  | search => exact hk rfl h
  | acquire n => exact ⟨h.1, hk rfl h.2⟩
  | connecting => exact hk rfl h
  | connected c => exact hk rfl h
  | sending c => trivial
  | done r => trivial
  | _ => exact h.elim

theorem taskStep_some {cfg : Cfg K} {s s' : State K} {i : Nat} {ok : Bool} {hint : Option K}
    (hs : taskStep cfg s i ok hint = some s') : ∃ t, s.tasks[i]? = some t ∧ pending t = true := by
  unfold taskStep at hs
  split at hs
  · cases hs
  case h_15 => cases hs
  all_goals
    rename_i ht
    exact ⟨_, ht, rfl⟩

theorem setPc_get {s : State K} {i : Nat} {t : Task K} (ht : s.tasks[i]? = some t) (pc : Pc K) :
    (s.setPc i pc).tasks[i]? = some ⟨t.key, pc⟩ := by
  simp only [State.setPc]
  rw [get_modify _ _ _ _ _ ht]
  simp

/-- A call keeps its key. -/
theorem step_key {cfg : Cfg K} {s s' : State K} {i : Nat} {ok : Bool} {hint : Option K} {t : Task K} (ht : s.tasks[i]? = some t)
    (hs : taskStep cfg s i ok hint = some s') : ∃ pc, s'.tasks[i]? = some ⟨t.key, pc⟩ := by
  have off : ∀ {s w cl : State K} {c : Nat}, s.tasks[i]? = some t → (∃ pc, w.tasks[i]? = some ⟨t.key, pc⟩) →
      (∃ pc, cl.tasks[i]? = some ⟨t.key, pc⟩) → ∃ pc, (s.offer i c w cl).tasks[i]? = some ⟨t.key, pc⟩ := by
    intro s w cl c hs hw hc
    unfold State.offer
    split
    · exact hc
    · split
      · split
        · exact ⟨_, setPc_get (s := s.setConn _ _) hs _⟩
        · exact hw
      · exact hc
  have htch : ∀ k, (s.touch k).tasks[i]? = some t := fun _ => ht
  have hrem : ∀ k, (s.removeKey k).tasks[i]? = some t := fun k => by rw [removeKey_tasks]; exact ht
  unfold taskStep at hs
  split at hs
  · cases hs
  · split at hs
    · cases hs
    · split at hs <;> cases hs
      · exact ⟨_, setPc_get ht _⟩
      · exact off (htch _) ⟨_, setPc_get (htch _) _⟩ ⟨_, setPc_get (htch _) _⟩
  · cases hs
    exact off ht ⟨_, ht⟩ ⟨_, setPc_get ht _⟩
  · split at hs <;> cases hs
    exact ⟨_, setPc_get (hrem _) _⟩
  · split at hs
    · split at hs <;> cases hs
      exact ⟨_, setPc_get ht _⟩
    · split at hs <;> cases hs
      exact ⟨_, setPc_get ht _⟩
  · split at hs
    · cases hs
      exact ⟨_, setPc_get (s := { s with avail := s.avail - 1 }) ht _⟩
    · split at hs <;> cases hs <;> exact ⟨_, setPc_get ht _⟩
  · split at hs <;> cases hs
    exact ⟨_, setPc_get (s := cleanup cfg s) (by unfold cleanup; rw [removeKeys_tasks]; exact ht) _⟩
  · split at hs <;> cases hs
    exact ⟨_, setPc_get ht _⟩
  · cases hs
    exact ⟨_, setPc_get ht _⟩
  · split at hs <;> cases hs
    exact ⟨_, setPc_get (hrem _) _⟩
  · split at hs <;> cases hs
    · exact ⟨_, setPc_get (s := { s with conns := _ }) ht _⟩
    · exact ⟨_, setPc_get (s := { s with avail := s.avail + 1 }) ht _⟩
  · split at hs <;> cases hs
    exact ⟨_, setPc_get (by rw [insertKey_tasks]; exact ht) _⟩
  · cases hs
    exact off ht ⟨_, ht⟩ ⟨_, setPc_get ht _⟩
  · split at hs <;> cases hs
    exact ⟨_, setPc_get (hrem _) _⟩
  · cases hs

theorem step_quiet {cfg : Cfg K} {s s' : State K} {a : Act K} (hr : Reach cfg s) (h : Quiet s) (hav : 0 < s.avail)
    (hex : ∀ c, a ≠ .exit c) (hcl : a ≠ .cleanup)
    (hone : ∀ (i j : Nat) (t u : Task K), s.tasks[i]? = some t → s.tasks[j]? = some u → pending t = true → pending u = true →
      t.key = u.key → i = j)
    (hs : step cfg s a = some s') : Quiet s' := by
  have hn := (reach_counted hr).nodup
  constructor
  · intro c x' hx'
    refine conns_inv (P := fun _ _ x => x.writer = .running ∧ x.aborted = false ∧ x.supervised = false) hn h.conns
      (fun _ _ => ⟨rfl, rfl, rfl⟩) ?_ hs c x' hx'
    rintro c x x' ⟨h1, h2, h3⟩ he
    refine ⟨?_, ?_, ?_⟩
    · rcases he.writer with h4 | ⟨_, ⟨h4, _⟩ | ⟨_, h4, _⟩⟩
      · rw [h4, h1]
      · exact absurd h4 (hex c)
      · rw [h2] at h4; cases h4
    · rcases he.aborted with h4 | ⟨k, e, h4, _, h5, _⟩
      · rw [h4, h2]
      · exact absurd h5 (quiet_noCause h hcl h4)
    · rcases he.supervised with h4 | h4
      · rw [h4, h3]
      · exact absurd h1 h4
  · intro j u hu
    cases a with
    | task i ok hint =>
      obtain ⟨t, ht, hp⟩ := taskStep_some hs
      obtain ⟨pc, hpc⟩ := step_key ht hs
      obtain ⟨hset, hmap⟩ := quiet_task hr h hav hs _ hpc
      by_cases hij : i = j
      · subst hij
        rw [hpc] at hu
        cases hu
        exact hset
      · rw [taskStep_other hij hs] at hu
        refine settled_pending (h.tasks j u hu) ?_
        intro hpu hnone
        rcases hmap u.key hnone with h' | h'
        · exact h'
        · exact absurd (hone i j t u ht hu hp hpu h'.symm) hij
    | call k =>
      rcases step_tasks hs hu with h' | ⟨k', _, rfl, _⟩ | ⟨_, _, h', _⟩
      · cases hs
        exact h.tasks j u h'
      · exact rfl
      · cases h'
    | write c =>
      rcases step_tasks hs hu with h' | ⟨k', h', _⟩ | ⟨_, _, h', _⟩
      · have := h.tasks j u h'
        simp only [step] at hs
        split at hs
        · cases hs
        · split at hs <;> cases hs
          exact this
      · cases h'
      · cases h'
    | exit c => exact absurd rfl (hex c)
    | cancel c =>
      simp only [step] at hs
      split at hs
      · cases hs
      · rename_i x hx
        split at hs
        · rename_i hc
          rw [(h.conns c x hx).2.1] at hc
          cases hc.2
        · cases hs
    | supervise c =>
      simp only [step] at hs
      split at hs
      · cases hs
      · rename_i x hx
        rw [if_pos (Or.inl (h.conns c x hx).1)] at hs
        cases hs
    | cleanup => exact absurd rfl hcl
    | tick d =>
      cases hs
      exact h.tasks j u hu
  · rcases step_new hs with hl | ⟨i, ok, hint, key, rfl, ht, hc⟩
    · have : s'.conns.map (·.key) = s.conns.map (·.key) := by
        apply List.ext_getElem?
        intro c
        rw [List.getElem?_map, List.getElem?_map]
        cases hx : s.conns[c]? with
        | none =>
          have h1 := (List.getElem?_eq_none_iff).mp hx
          have : s'.conns[c]? = none := by rw [List.getElem?_eq_none_iff]; omega
          rw [this]
        | some x =>
          obtain ⟨x', hx', he⟩ := step_effect hn hx hs
          rw [hx']
          simp [he.key]
      rw [this]
      exact h.keys
    · rw [hc, List.map_append, List.nodup_append]
      refine ⟨h.keys, by simp, ?_⟩
      intro a ha b hb
      simp only [List.map_cons, List.map_nil, List.mem_singleton] at hb
      subst hb
      rintro rfl
      obtain ⟨x, hx, hxk⟩ := List.mem_map.mp ha
      obtain ⟨c, hc⟩ := List.getElem?_of_mem hx
      have hlive : live s.conns c = true := (live_iff _ _).mpr ⟨x, hc, (h.conns c x hc).2.1⟩
      have ho := reach_owned hr c
      rw [hlive] at ho
      have hnone : Tbl.get s.map a = none := h.tasks i _ ht
      have hsum : 0 < mapOwn s.map c ∨ 0 < pcOwn s.tasks c := by simp at ho; omega
      rcases hsum with hm | hm
      · unfold mapOwn at hm
        rw [List.countP_pos_iff] at hm
        obtain ⟨⟨k, e⟩, hmem, hce⟩ := hm
        have hg := Tbl.get_of_mem _ _ _ hn hmem
        obtain ⟨y, hy, hyk⟩ := (reach_deliver hr).entry k e hg
        simp only [beq_iff_eq] at hce
        rw [hce, hc] at hy
        cases hy
        rw [← hyk, hxk, hnone] at hg
        cases hg
      · unfold pcOwn at hm
        rw [List.countP_pos_iff] at hm
        obtain ⟨t, htm, hct⟩ := hm
        obtain ⟨j, hj⟩ := List.getElem?_of_mem htm
        obtain ⟨key, pc⟩ := t
        cases pc with
        | connected c' =>
          simp only [isConn, beq_iff_eq] at hct
          subst hct
          obtain ⟨y, hy, hyk⟩ := (reach_deliver hr).pcs j _ hj
          rw [hc] at hy
          cases hy
          have := hone i j _ _ ht hj rfl rfl (by rw [← hxk, hyk])
          subst this
          rw [ht] at hj
          cases hj
        | _ => cases hct

theorem calm_quiet {cfg : Cfg K} : ∀ (as : List (Act K)) {s s' : State K}, Reach cfg s → Quiet s → Calm cfg s as →
    run cfg s as = some s' → Quiet s'
  | [], s, s', _, h, _, hr => by cases hr; exact h
  | a :: as, s, s', hre, h, hc, hr => by
    simp only [run] at hr
    obtain ⟨h1, h2, h3, h4, h5⟩ := hc
    cases hx : step cfg s a with
    | none => rw [hx] at hr; cases hr
    | some s1 =>
      rw [hx] at hr
      exact calm_quiet as (reach_step hre hx) (step_quiet hre h h1 h2 h3 h4 hx) (h5 s1 hx) hr

theorem quiet_init (cfg : Cfg K) : Quiet (init cfg : State K) :=
  ⟨fun c x hx => by simp [init] at hx, fun i t ht => by simp [init] at ht, List.nodup_nil⟩

end Siphon.Pool
