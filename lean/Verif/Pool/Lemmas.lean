import Verif.Pool.Model
set_option linter.unusedSimpArgs false
set_option linter.unusedSectionVars false
/-!
# Lemmas about pools
-/
namespace Siphon.Pool
variable {K : Type} [DecidableEq K]

/-! ## Lists -/

theorem countP_modify {α : Type} (p : α → Bool) (f : α → α) : ∀ (l : List α) (i : Nat) (a : α), l[i]? = some a →
    (l.modify i f).countP p + (if p a then 1 else 0) = l.countP p + (if p (f a) then 1 else 0)
  | [], i, a, h => by simp at h
  | b :: l, 0, a, h => by
    simp only [List.getElem?_cons_zero, Option.some.injEq] at h
    subst h
    simp only [List.modify_zero_cons, List.countP_cons]
    omega
  | b :: l, i + 1, a, h => by
    have := countP_modify p f l i a (by simpa using h)
    simp only [List.modify_succ_cons, List.countP_cons]
    omega

theorem get_modify {α : Type} (f : α → α) (l : List α) (i j : Nat) (a : α) (h : l[j]? = some a) :
    (l.modify i f)[j]? = some (if i = j then f a else a) := by
  rw [List.getElem?_modify, h]
  rfl

theorem get_modify_iff {α : Type} (f : α → α) (l : List α) (i j : Nat) (b : α) :
    (l.modify i f)[j]? = some b ↔ ∃ a, l[j]? = some a ∧ b = if i = j then f a else a := by
  rw [List.getElem?_modify]
  cases h : l[j]? with
  | none => simp
  | some a => simp [eq_comm]

/-! ## Slots -/

/-- A call that holds a permit. -/
def opening (t : Task K) : Bool :=
  match t.pc with
  | .connecting => true
  | .connected _ => true
  | _ => false

/-- The permits that calls do not hold. -/
def slots (s : State K) : Nat := s.avail + s.map.length

structure Counted (cfg : Cfg K) (s : State K) : Prop where
  nodup : (Tbl.keys s.map).Nodup
  permits : slots s + s.tasks.countP opening = cfg.max

@[simp] theorem setPc_map (s : State K) (i : Nat) (pc : Pc K) : (s.setPc i pc).map = s.map := rfl
@[simp] theorem setPc_avail (s : State K) (i : Nat) (pc : Pc K) : (s.setPc i pc).avail = s.avail := rfl
@[simp] theorem setPc_conns (s : State K) (i : Nat) (pc : Pc K) : (s.setPc i pc).conns = s.conns := rfl
@[simp] theorem setPc_events (s : State K) (i : Nat) (pc : Pc K) : (s.setPc i pc).events = s.events := rfl
@[simp] theorem setPc_now (s : State K) (i : Nat) (pc : Pc K) : (s.setPc i pc).now = s.now := rfl
@[simp] theorem setPc_slots (s : State K) (i : Nat) (pc : Pc K) : slots (s.setPc i pc) = slots s := rfl
@[simp] theorem setConn_map (s : State K) (i : Nat) (f : Conn K → Conn K) : (s.setConn i f).map = s.map := rfl
@[simp] theorem setConn_avail (s : State K) (i : Nat) (f : Conn K → Conn K) : (s.setConn i f).avail = s.avail := rfl
@[simp] theorem setConn_tasks (s : State K) (i : Nat) (f : Conn K → Conn K) : (s.setConn i f).tasks = s.tasks := rfl
@[simp] theorem setConn_events (s : State K) (i : Nat) (f : Conn K → Conn K) : (s.setConn i f).events = s.events := rfl
@[simp] theorem setConn_now (s : State K) (i : Nat) (f : Conn K → Conn K) : (s.setConn i f).now = s.now := rfl
@[simp] theorem setConn_slots (s : State K) (i : Nat) (f : Conn K → Conn K) : slots (s.setConn i f) = slots s := rfl
@[simp] theorem touch_avail (s : State K) (k : K) : (s.touch k).avail = s.avail := rfl
@[simp] theorem touch_conns (s : State K) (k : K) : (s.touch k).conns = s.conns := rfl
@[simp] theorem touch_tasks (s : State K) (k : K) : (s.touch k).tasks = s.tasks := rfl
@[simp] theorem touch_events (s : State K) (k : K) : (s.touch k).events = s.events := rfl
@[simp] theorem touch_now (s : State K) (k : K) : (s.touch k).now = s.now := rfl
@[simp] theorem touch_slots (s : State K) (k : K) : slots (s.touch k) = slots s := by
  unfold slots State.touch
  simp
@[simp] theorem touch_keys (s : State K) (k : K) : Tbl.keys (s.touch k).map = Tbl.keys s.map := by
  unfold State.touch
  simp
@[simp] theorem push_map (s : State K) (c i : Nat) : (s.push c i).map = s.map := rfl
@[simp] theorem push_avail (s : State K) (c i : Nat) : (s.push c i).avail = s.avail := rfl
@[simp] theorem push_events (s : State K) (c i : Nat) : (s.push c i).events = s.events := rfl
@[simp] theorem push_slots (s : State K) (c i : Nat) : slots (s.push c i) = slots s := rfl

theorem removeKey_tasks (s : State K) (k : K) : (s.removeKey k).tasks = s.tasks := by
  unfold State.removeKey
  split <;> rfl
theorem removeKey_events (s : State K) (k : K) : (s.removeKey k).events = s.events := by
  unfold State.removeKey
  split <;> rfl
theorem removeKey_now (s : State K) (k : K) : (s.removeKey k).now = s.now := by
  unfold State.removeKey
  split <;> rfl
theorem removeKey_map (s : State K) (k : K) : (s.removeKey k).map = Tbl.remove s.map k := by
  unfold State.removeKey
  split
  · rename_i h
    rw [Tbl.remove_of_not_mem _ _ ((Tbl.get_eq_none_iff _ _).mp h)]
  · rfl

theorem removeKey_slots (s : State K) (k : K) (h : (Tbl.keys s.map).Nodup) : slots (s.removeKey k) = slots s := by
  unfold slots
  rw [removeKey_map]
  unfold State.removeKey
  split
  · rename_i hg
    rw [Tbl.remove_of_not_mem _ _ ((Tbl.get_eq_none_iff _ _).mp hg)]
  · rename_i e hg
    have hm : k ∈ Tbl.keys s.map := by rw [← Tbl.get_isSome_iff, hg]; rfl
    have := Tbl.length_remove_mem s.map k h hm
    simp only [State.drop]
    omega

theorem removeKeys_tasks : ∀ (ks : List K) (s : State K), (ks.foldl State.removeKey s).tasks = s.tasks
  | [], _ => rfl
  | k :: ks, s => by rw [List.foldl_cons, removeKeys_tasks ks, removeKey_tasks]

theorem removeKeys_events : ∀ (ks : List K) (s : State K), (ks.foldl State.removeKey s).events = s.events
  | [], _ => rfl
  | k :: ks, s => by rw [List.foldl_cons, removeKeys_events ks, removeKey_events]

theorem removeKeys_counted : ∀ (ks : List K) (s : State K), (Tbl.keys s.map).Nodup →
    (Tbl.keys (ks.foldl State.removeKey s).map).Nodup ∧ slots (ks.foldl State.removeKey s) = slots s
  | [], _, h => ⟨h, rfl⟩
  | k :: ks, s, h => by
    rw [List.foldl_cons]
    have h' : (Tbl.keys (s.removeKey k).map).Nodup := by
      rw [removeKey_map]
      exact Tbl.nodup_remove _ _ h
    obtain ⟨a, b⟩ := removeKeys_counted ks (s.removeKey k) h'
    exact ⟨a, by rw [b, removeKey_slots s k h]⟩

theorem insertKey_counted (s : State K) (k : K) (e : Entry) (h : (Tbl.keys s.map).Nodup) :
    (Tbl.keys (s.insertKey k e).map).Nodup ∧ slots (s.insertKey k e) = slots s + 1 := by
  have h' : (Tbl.keys (s.removeKey k).map).Nodup := by
    rw [removeKey_map]
    exact Tbl.nodup_remove _ _ h
  refine ⟨Tbl.nodup_insert _ _ _ h', ?_⟩
  have := removeKey_slots s k h
  have hm : k ∉ Tbl.keys (s.removeKey k).map := by
    rw [removeKey_map]
    exact Tbl.not_mem_keys_remove _ _
  unfold slots at this ⊢
  unfold State.insertKey
  simp only [Tbl.insert, List.length_cons, Tbl.remove_of_not_mem _ _ hm]
  omega

theorem insertKey_tasks (s : State K) (k : K) (e : Entry) : (s.insertKey k e).tasks = s.tasks := by
  unfold State.insertKey
  simp only [removeKey_tasks]

theorem insertKey_events (s : State K) (k : K) (e : Entry) : (s.insertKey k e).events = s.events := by
  unfold State.insertKey
  simp only [removeKey_events]

/-- A call goes from one place to another, neither or both of which hold a permit. -/
theorem counted_setPc {cfg : Cfg K} {s s' : State K} {i : Nat} {t : Task K} (pc : Pc K) (h : Counted cfg s)
    (ht : s.tasks[i]? = some t) (hs : s'.tasks = s.tasks) (hn : (Tbl.keys s'.map).Nodup)
    (hc : slots s' + (if opening ⟨t.key, pc⟩ then 1 else 0) = slots s + (if opening t then 1 else 0)) :
    Counted cfg (s'.setPc i pc) := by
  refine ⟨hn, ?_⟩
  have := countP_modify opening (fun t : Task K => { t with pc := pc }) s'.tasks i t (by rw [hs]; exact ht)
  have hp := h.permits
  rw [hs] at this
  simp only [setPc_slots, State.setPc, hs]
  change slots s' + _ = cfg.max
  omega

theorem offer_counted {cfg : Cfg K} {s' w cl : State K} {i c : Nat} (hp : Counted cfg (s'.push c i))
    (hw : Counted cfg w) (hc : Counted cfg cl) : Counted cfg (s'.offer i c w cl) := by
  unfold State.offer
  split
  · exact hc
  · split
    · split
      · exact hp
      · exact hw
    · exact hc

theorem counted_push {cfg : Cfg K} {s s' : State K} {i c : Nat} {t : Task K} (h : Counted cfg s)
    (ht : s.tasks[i]? = some t) (hs : s'.tasks = s.tasks) (hn : (Tbl.keys s'.map).Nodup) (ho : opening t = false)
    (hc : slots s' = slots s) : Counted cfg (s'.push c i) := by
  unfold State.push
  refine counted_setPc (s := s) (t := t) _ h ht ?_ hn ?_
  · exact hs
  · rw [setConn_slots, hc, ho]
    rfl

theorem taskStep_counted {cfg : Cfg K} {s s' : State K} {i : Nat} {ok : Bool} {hint : Option K} (h : Counted cfg s)
    (hs : taskStep cfg s i ok hint = some s') : Counted cfg s' := by
  have hn := h.nodup
  have hrem : ∀ k, (Tbl.keys (s.removeKey k).map).Nodup := fun k => by
    rw [removeKey_map]
    exact Tbl.nodup_remove _ _ hn
  unfold taskStep at hs
  split at hs
  · cases hs
  · -- look
    rename_i key k first ht
    split at hs
    · cases hs
    · split at hs
      · cases hs
        refine counted_setPc _ h ht rfl hn ?_
        cases first <;> rfl
      · cases hs
        have hnt : (Tbl.keys (s.touch k).map).Nodup := by rw [touch_keys]; exact hn
        refine offer_counted ?_ ?_ ?_
        · exact counted_push h ht rfl hnt rfl (touch_slots _ _)
        · refine counted_setPc _ h ht rfl hnt ?_
          rw [touch_slots]; rfl
        · refine counted_setPc _ h ht rfl hnt ?_
          rw [touch_slots]; rfl
  · -- waiting
    rename_i key k c first ht
    cases hs
    exact offer_counted (counted_push h ht rfl hn rfl rfl) h (counted_setPc _ h ht rfl hn rfl)
  · rename_i key k first ht
    split at hs
    · cases hs
    · cases hs
      refine counted_setPc _ h ht (removeKey_tasks _ _) (hrem k) ?_
      rw [removeKey_slots _ _ hn]
      cases first <;> rfl
  · -- search
    rename_i key ht
    split at hs
    · split at hs
      · cases hs
        exact counted_setPc _ h ht rfl hn rfl
      · cases hs
    · split at hs
      · cases hs
      · cases hs
        exact counted_setPc _ h ht rfl hn rfl
  · -- acquire
    rename_i key n ht
    split at hs
    · rename_i ha
      cases hs
      refine counted_setPc _ h ht rfl hn ?_
      change s.avail - 1 + s.map.length + 1 = s.avail + s.map.length + 0
      omega
    · split at hs <;> cases hs <;> exact counted_setPc _ h ht rfl hn rfl
  · rename_i key ht
    split at hs
    · cases hs
    · cases hs
      obtain ⟨a, b⟩ := removeKeys_counted ((s.map.filter (fun p => isIdle cfg s p.2)).map (·.1)) s hn
      refine counted_setPc _ h ht (removeKeys_tasks _ _) a ?_
      unfold cleanup
      rw [b]; rfl
  · rename_i key ht
    split at hs
    · cases hs
    · cases hs
      exact counted_setPc _ h ht rfl hn rfl
  · rename_i key ht
    cases hs
    exact counted_setPc _ h ht rfl hn rfl
  · rename_i key k ks ht
    split at hs
    · cases hs
    · cases hs
      refine counted_setPc _ h ht (removeKey_tasks _ _) (hrem k) ?_
      rw [removeKey_slots _ _ hn]; rfl
  · -- connecting
    rename_i key ht
    split at hs
    · cases hs
      exact counted_setPc _ h ht rfl hn rfl
    · cases hs
      refine counted_setPc _ h ht rfl hn ?_
      change s.avail + 1 + s.map.length + 0 = s.avail + s.map.length + 1
      omega
  · rename_i key c ht
    split at hs
    · cases hs
    · cases hs
      obtain ⟨a, b⟩ := insertKey_counted s key ⟨c, s.now⟩ hn
      refine counted_setPc _ h ht (insertKey_tasks _ _ _) a ?_
      rw [b]; rfl
  · rename_i key c ht
    cases hs
    exact offer_counted (counted_push h ht rfl hn rfl rfl) h (counted_setPc _ h ht rfl hn rfl)
  · rename_i key ht
    split at hs
    · cases hs
    · cases hs
      refine counted_setPc _ h ht (removeKey_tasks _ _) (hrem key) ?_
      rw [removeKey_slots _ _ hn]; rfl
  · cases hs

theorem step_counted {cfg : Cfg K} {s s' : State K} {a : Act K} (h : Counted cfg s) (hs : step cfg s a = some s') :
    Counted cfg s' := by
  cases a with
  | call k =>
    cases hs
    refine ⟨h.nodup, ?_⟩
    have := h.permits
    simp only [List.countP_append, List.countP_singleton]
    exact this
  | task i ok hint => exact taskStep_counted h hs
  | write c =>
    simp only [step] at hs
    split at hs
    · cases hs
    · split at hs
      · cases hs; exact ⟨h.nodup, h.permits⟩
      · cases hs
  | exit c =>
    simp only [step] at hs
    split at hs
    · cases hs
    · split at hs
      · cases hs; exact ⟨h.nodup, h.permits⟩
      · cases hs
  | cancel c =>
    simp only [step] at hs
    split at hs
    · cases hs
    · split at hs
      · cases hs; exact ⟨h.nodup, h.permits⟩
      · cases hs
  | supervise c =>
    simp only [step] at hs
    split at hs
    · cases hs
    · split at hs
      · cases hs
      · cases hs
        rename_i x hx _
        constructor
        · change (Tbl.keys (s.removeKey x.key).map).Nodup
          rw [removeKey_map]
          exact Tbl.nodup_remove _ _ h.nodup
        · change slots (s.removeKey x.key) + (s.removeKey x.key).tasks.countP opening = cfg.max
          rw [removeKey_slots _ _ h.nodup, removeKey_tasks]
          exact h.permits
  | cleanup =>
    simp only [step] at hs
    split at hs
    · cases hs
    · cases hs
      unfold cleanup
      obtain ⟨a, b⟩ := removeKeys_counted ((s.map.filter (fun p => isIdle cfg s p.2)).map (·.1)) s h.nodup
      refine ⟨a, ?_⟩
      rw [b, removeKeys_tasks]
      exact h.permits
  | tick d =>
    cases hs
    exact ⟨h.nodup, h.permits⟩

theorem run_inv {cfg : Cfg K} {P : State K → Prop} (hP : ∀ s a s', P s → step cfg s a = some s' → P s') :
    ∀ (as : List (Act K)) (s s' : State K), P s → run cfg s as = some s' → P s'
  | [], s, s', h, hr => by cases hr; exact h
  | a :: as, s, s', h, hr => by
    unfold run at hr
    cases hx : step cfg s a with
    | none => rw [hx] at hr; cases hr
    | some x =>
      rw [hx] at hr
      exact run_inv hP as x s' (hP s a x h hx) hr

theorem reach_counted {cfg : Cfg K} {s : State K} (h : Reach cfg s) : Counted cfg s := by
  obtain ⟨as, h⟩ := h
  refine run_inv (fun s a s' => step_counted) as _ _ ?_ h
  refine ⟨List.nodup_nil, ?_⟩
  simp [slots, init]

end Siphon.Pool
