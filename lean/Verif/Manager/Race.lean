import Verif.Manager.LemmasServer
/-!
# The limit check under concurrency (C10)

`receive_request` and `start_client_inner` run on many tokio tasks.  The limit is enforced by three
separate accesses to the concurrent map: read its size and pick a victim
(manager.rs 661-664, 684-687), remove the victim (671, 694), insert the new entry (857, 962).
Here two tasks interleave at that grain.  A table is modelled with the start time as its value.
-/

namespace Siphon.Manager.Race
open Siphon.Manager

/-- where a task is in its call -/
inductive Phase
  | idle
  | looked (victim : Option Key)
  | ready
  deriving DecidableEq, Repr

/-- one access by one task: manager.rs 660-678 / 683-708, then the insert of 857 / 962 for the new
transaction `k` created at `now`. -/
def act (max : Nat) (k : Key) (now : Nat) (p : Phase) (t : Tbl Key Nat) : Phase × Tbl Key Nat :=
  match p with
  | .idle => (.looked (if t.length ≥ max then (oldest id t).map (·.1) else none), t)
  | .looked none => (.ready, t)
  | .looked (some v) => (.ready, t.remove v)
  | .ready => (.idle, t.insert k now)

/-- two tasks and the table -/
structure Sys where
  p : Phase
  q : Phase
  t : Tbl Key Nat
  deriving DecidableEq, Repr

/-- the next access is made by the first task (`true`) or the second -/
def Sys.step (max : Nat) (s : Sys) (c : Bool × Key × Nat) : Sys :=
  if c.1 then { s with p := (act max c.2.1 c.2.2 s.p s.t).1, t := (act max c.2.1 c.2.2 s.p s.t).2 }
  else { s with q := (act max c.2.1 c.2.2 s.q s.t).1, t := (act max c.2.1 c.2.2 s.q s.t).2 }

def Sys.run (max : Nat) (s : Sys) (cs : List (Bool × Key × Nat)) : Sys := cs.foldl (Sys.step max) s

def Sys.init : Sys := ⟨.idle, .idle, []⟩

/-! ## One task alone keeps the limit -/

theorem length_insert (t : Tbl Key Nat) (k : Key) (v : Nat) : (t.insert k v).length ≤ t.length + 1 :=
  Tbl.length_insert_le t k v

/-- **C10 under sequential use, at this grain**: if only one task runs, the table never exceeds the
limit. -/
theorem C10_one_task (max : Nat) (hm : 1 ≤ max) (cs : List (Bool × Key × Nat)) (h : ∀ c ∈ cs, c.1 = true) :
    (Sys.init.run max cs).t.length ≤ max := by
  have inv : ∀ (s : Sys), (s.t.length ≤ max ∧ s.t.keys.Nodup ∧ (s.p = .ready → s.t.length < max) ∧
      (∀ v, s.p = .looked v → (v = none ∧ s.t.length < max) ∨ ∃ k, v = some k ∧ k ∈ s.t.keys)) →
      ∀ cs : List (Bool × Key × Nat), (∀ c ∈ cs, c.1 = true) → (s.run max cs).t.length ≤ max := by
    intro s hs cs
    induction cs generalizing s with
    | nil => intro _; exact hs.1
    | cons c cs ih =>
      intro hc
      obtain ⟨h1, h2, h3, h4⟩ := hs
      refine ih _ ?_ (fun c' hc' => hc c' (by simp [hc']))
      have : c.1 = true := hc c (by simp)
      simp only [Sys.step, this, if_true]
      cases hp : s.p with
      | idle =>
        simp only [act]
        refine ⟨h1, h2, by simp, ?_⟩
        intro v hv
        simp only [Phase.looked.injEq] at hv
        subst hv
        split
        · rename_i hge
          right
          cases ho : oldest id s.t with
          | none =>
            exfalso
            obtain ⟨k, sv, hk⟩ := oldest_ne_none id s.t (by omega)
            rw [ho] at hk; simp at hk
          | some kv =>
            obtain ⟨k, sv⟩ := kv
            refine ⟨k, rfl, ?_⟩
            obtain ⟨v, hv, _⟩ := oldest_mem id s.t k sv ho
            exact List.mem_map.mpr ⟨_, hv, rfl⟩
        · left; exact ⟨rfl, by omega⟩
      | looked v =>
        rcases h4 v hp with ⟨rfl, hlt⟩ | ⟨k, rfl, hk⟩
        · simp only [act]
          exact ⟨h1, h2, fun _ => hlt, by simp⟩
        · simp only [act]
          have := Tbl.length_remove_lt s.t k hk
          exact ⟨by omega, Tbl.nodup_remove _ _ h2, fun _ => by omega, by simp⟩
      | ready =>
        simp only [act]
        have := h3 hp
        have hl := Tbl.length_insert_le s.t c.2.1 c.2.2
        exact ⟨by omega, Tbl.nodup_insert _ _ _ h2, by simp, by simp⟩
  exact inv Sys.init ⟨by simp [Sys.init], by simp [Sys.init, Tbl.keys], by simp [Sys.init], by simp [Sys.init]⟩ cs h

/-! ## Two tasks do not -/

/-- distinct keys, one per length -/
def key (n : Nat) : Key := ⟨List.replicate n 'a', .invite, true⟩

/-- both tasks look, both remove, both insert -/
def round (n : Nat) : List (Bool × Key × Nat) :=
  [(true, key n, n), (false, key (n + 1), n), (true, key n, n), (false, key (n + 1), n),
   (true, key n, n), (false, key (n + 1), n)]

/-- the first task alone -/
def solo (n : Nat) : List (Bool × Key × Nat) :=
  [(true, key n, n), (true, key n, n), (true, key n, n)]

/-- between calls, with keys shorter than `n` only -/
structure Calm (n : Nat) (s : Sys) : Prop where
  p : s.p = .idle
  q : s.q = .idle
  nodup : s.t.keys.Nodup
  short : ∀ k ∈ s.t.keys, k.branch.length < n

theorem fresh_insert (n : Nat) (t : Tbl Key Nat) (v : Nat) (h : ∀ k ∈ t.keys, k.branch.length < n) :
    t.insert (key n) v = (key n, v) :: t ∧ (∀ k ∈ (t.insert (key n) v).keys, k.branch.length < n + 1) := by
  have hn : key n ∉ t.keys := by
    intro hk; have := h _ hk; simp [key] at this
  have e : t.insert (key n) v = (key n, v) :: t := by
    simp only [Tbl.insert, Tbl.remove_of_not_mem t _ hn]
  refine ⟨e, ?_⟩
  rw [e]
  intro k hk
  simp only [Tbl.keys, List.map_cons, List.mem_cons] at hk
  rcases hk with rfl | hk
  · simp [key]
  · have := h k hk; omega

theorem calm_round (max n : Nat) (hm : 1 ≤ max) (s : Sys) (h : Calm n s) (hl : max ≤ s.t.length) :
    Calm (n + 2) (s.run max (round n)) ∧ (s.run max (round n)).t.length = s.t.length + 1 := by
  obtain ⟨p, q, t⟩ := s
  obtain ⟨hp, hq, hnd, hs⟩ := h
  simp only at hp hq hnd hs hl
  subst hp hq
  cases ho : oldest id t with
  | none =>
    obtain ⟨k, sv, hk⟩ := oldest_ne_none id t (by omega)
    rw [ho] at hk; simp at hk
  | some kv =>
    obtain ⟨k, sv⟩ := kv
    obtain ⟨v, hv, _⟩ := oldest_mem id t k sv ho
    have hk : k ∈ t.keys := List.mem_map.mpr ⟨_, hv, rfl⟩
    have hlen := Tbl.length_remove_mem t k hnd hk
    have hrr : (t.remove k).remove k = t.remove k := Tbl.remove_of_not_mem _ _ (Tbl.not_mem_keys_remove t k)
    have hge : t.length ≥ max := hl
    simp only [round, Sys.run, List.foldl_cons, List.foldl_nil, Sys.step, act, if_true, ho, hge,
      Bool.false_eq_true, if_false, Option.map_some, hrr]
    have hs' : ∀ k' ∈ (t.remove k).keys, k'.branch.length < n := by
      intro k' hk'
      rw [Tbl.keys_remove] at hk'
      exact hs k' (List.mem_filter.mp hk').1
    obtain ⟨e1, s1⟩ := fresh_insert n (t.remove k) n hs'
    obtain ⟨e2, s2⟩ := fresh_insert (n + 1) ((t.remove k).insert (key n) n) n s1
    refine ⟨⟨rfl, rfl, ?_, s2⟩, ?_⟩
    · exact Tbl.nodup_insert _ _ _ (Tbl.nodup_insert _ _ _ (Tbl.nodup_remove _ _ hnd))
    · rw [e2, e1]
      simp only [List.length_cons]
      omega

theorem calm_solo (max n : Nat) (s : Sys) (h : Calm n s) (hl : s.t.length < max) :
    Calm (n + 1) (s.run max (solo n)) ∧ (s.run max (solo n)).t.length = s.t.length + 1 := by
  obtain ⟨p, q, t⟩ := s
  obtain ⟨hp, hq, hnd, hs⟩ := h
  simp only at hp hq hnd hs hl
  subst hp hq
  have hge : ¬ t.length ≥ max := by omega
  simp only [solo, Sys.run, List.foldl_cons, List.foldl_nil, Sys.step, act, if_true, hge, if_false]
  obtain ⟨e1, s1⟩ := fresh_insert n t n hs
  refine ⟨⟨rfl, rfl, Tbl.nodup_insert _ _ _ hnd, s1⟩, ?_⟩
  rw [e1]
  simp

/-- **Finding (C10).** With two tasks the limit bounds nothing: for every limit and every size there
is a schedule that leaves more entries than that in the table, although each call evicts the oldest
entry it sees before inserting one. -/
theorem C10_concurrent_unbounded (max : Nat) (hm : 1 ≤ max) (size : Nat) :
    ∃ cs, size ≤ (Sys.init.run max cs).t.length := by
  suffices h : ∀ size, ∃ cs n, Calm n (Sys.init.run max cs) ∧ (Sys.init.run max cs).t.length = size by
    obtain ⟨cs, _, _, h⟩ := h size
    exact ⟨cs, by omega⟩
  intro size
  induction size with
  | zero => exact ⟨[], 0, ⟨rfl, rfl, by simp [Sys.run, Sys.init, Tbl.keys], by simp [Sys.run, Sys.init, Tbl.keys]⟩, rfl⟩
  | succ size ih =>
    obtain ⟨cs, n, hc, hl⟩ := ih
    have happ : ∀ ds, Sys.init.run max (cs ++ ds) = (Sys.init.run max cs).run max ds := by
      intro ds; simp [Sys.run]
    by_cases hs : size < max
    · obtain ⟨h1, h2⟩ := calm_solo max n _ hc (by omega)
      exact ⟨cs ++ solo n, n + 1, by rw [happ]; exact h1, by rw [happ, h2, hl]⟩
    · obtain ⟨h1, h2⟩ := calm_round max n hm _ hc (by omega)
      exact ⟨cs ++ round n, n + 2, by rw [happ]; exact h1, by rw [happ, h2, hl]⟩

/-- a limit of 2 overrun by one race -/
example : (Sys.init.run 2 (solo 0 ++ solo 1 ++ round 2)).t.length = 3 := by decide +kernel

end Siphon.Manager.Race
