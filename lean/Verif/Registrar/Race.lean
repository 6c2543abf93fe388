import Verif.Registrar.Props
set_option linter.unusedSimpArgs false
/-!
# The registrar under concurrency (C41, C43)

`upsert` sums the lengths of all entries (lib.rs 863) and only later locks the entry it changes (870); the
handler reads the existing bindings (2029) and only later stores new ones (2139).  Here calls interleave at
that grain.
-/
namespace Siphon.Registrar
open Spec HdrSpec

/-! ## The limits of the store -/

/-- lib.rs 870-902: the part of `upsert` under the lock of the entry. -/
def Store.commit (s : Store) (b : Binding) (now : Nat) : Store :=
  if ((s.at b.aor).filter (fun x => x.contact != b.contact)).length ≥ MAX_BINDINGS_PER_AOR then s
  else s.insert b.aor ((s.at b.aor).filter (fun x => x.contact != b.contact) ++ [b.stored now])

namespace Race

/-- The store, and the calls of `upsert` that have passed the check of the total. -/
structure Sys where
  store : Store
  pend : List (Binding × Nat)

inductive Act
  /-- a call of `upsert` checks the total (lib.rs 863-868) -/
  | look (b : Binding) (now : Nat)
  /-- the `i`-th of the calls under way stores its binding (870-902) -/
  | commit (i : Nat)
  /-- removals, lookups, clean-up -/
  | other (op : StoreOp)

/-- One access to the map.  (An `upsert` as `other` operation is one that nothing interrupts.) -/
def Sys.step (s : Sys) : Act → Sys
  | .look b now => if s.store.total ≥ MAX_TOTAL_BINDINGS then s else { s with pend := s.pend ++ [(b, now)] }
  | .commit i =>
    match s.pend[i]? with
    | none => s
    | some (b, now) => { store := s.store.commit b now, pend := s.pend.eraseIdx i }
  | .other op => { s with store := s.store.step op }

def Sys.run (s : Sys) (as : List Act) : Sys := as.foldl Sys.step s

def init : Sys := ⟨[], []⟩

/-- At no time are more than `k` calls under way. -/
def AtMost (k : Nat) (s : Sys) : List Act → Prop
  | [] => s.pend.length ≤ k
  | a :: as => s.pend.length ≤ k ∧ AtMost k (s.step a) as

/-- An `upsert` that nothing interrupts is the two accesses, one after the other. -/
theorem upsert_split (s : Store) (b : Binding) (now : Nat) :
    (Sys.run ⟨s, []⟩ [.look b now, .commit 0]).store = (s.upsert b now).2 := by
  unfold Sys.run Store.upsert
  by_cases h : s.total ≥ MAX_TOTAL_BINDINGS
  · simp only [List.foldl_cons, List.foldl_nil, Sys.step, if_pos h, List.getElem?_nil]
  · simp only [List.foldl_cons, List.foldl_nil, Sys.step, if_neg h, List.nil_append, List.getElem?_cons_zero,
      Store.commit]
    split <;> rfl

theorem at_commit (s : Store) (b : Binding) (t : Nat) (k : Str) :
    (s.commit b t).at k =
      if ((s.at b.aor).filter (fun x => x.contact != b.contact)).length < MAX_BINDINGS_PER_AOR ∧ k = b.aor then
        (s.at k).filter (fun x => x.contact != b.contact) ++ [b.stored t]
      else s.at k := by
  unfold Store.commit
  split
  · rename_i h; rw [if_neg (by omega)]
  · rename_i h
    by_cases hk : k = b.aor
    · rw [if_pos ⟨by omega, hk⟩, hk, at_insert_self]
    · rw [if_neg (fun hh => hk hh.2), at_insert_ne _ _ hk]

theorem good_commit {s : Store} (b : Binding) (t : Nat) (h : Good s) : Good (s.commit b t) := by
  refine ⟨?_, fun k => ?_, fun k => ?_⟩
  · unfold Store.commit
    split
    · exact h.keys
    · exact Tbl.nodup_insert _ _ _ h.keys
  · rw [at_commit]
    split
    · rw [List.map_append, List.nodup_append]
      refine ⟨(List.Sublist.map _ List.filter_sublist).nodup (h.contacts k), by simp, ?_⟩
      intro a ha c hc
      simp only [List.map_cons, List.map_nil, List.mem_singleton] at hc
      subst hc
      obtain ⟨x, hx, rfl⟩ := List.mem_map.mp ha
      have := (List.mem_filter.mp hx).2
      simpa [Binding.stored] using this
    · exact h.contacts k
  · rw [at_commit]
    split
    · rename_i hc
      obtain ⟨hlt, rfl⟩ := hc
      rw [List.length_append, List.length_singleton]
      omega
    · exact h.few k

theorem total_commit {s : Store} (b : Binding) (t : Nat) (h : Good s) : (s.commit b t).total ≤ s.total + 1 := by
  unfold Store.commit
  split
  · omega
  · have := total_insert s b.aor ((s.at b.aor).filter (fun x => x.contact != b.contact) ++ [b.stored t]) h.keys
    have hl := List.length_filter_le (fun x : Stored => x.contact != b.contact) (s.at b.aor)
    rw [List.length_append, List.length_singleton] at this
    omega

theorem good_sys (s : Sys) (a : Act) (h : Good s.store) : Good (s.step a).store := by
  cases a with
  | look b now => simp only [Sys.step]; split <;> exact h
  | commit i =>
    simp only [Sys.step]
    split
    · exact h
    · exact good_commit _ _ h
  | other op => exact good_step _ _ h

theorem good_sys_run : ∀ (as : List Act) (s : Sys), Good s.store → Good (s.run as).store
  | [], _, h => h
  | a :: as, s, h => good_sys_run as (s.step a) (good_sys s a h)

theorem total_other (s : Store) (op : StoreOp) (h : Good s) :
    (s.step op).total ≤ s.total ∨ (s.step op).total ≤ MAX_TOTAL_BINDINGS := by
  by_cases hm : s.total ≤ MAX_TOTAL_BINDINGS
  · exact Or.inr (total_step s op h.keys hm)
  · left
    cases op with
    | upsert b t =>
      show (s.upsert b t).2.total ≤ _
      unfold Store.upsert
      rw [if_pos (by omega)]
      exact Nat.le_refl _
    | remove a c t => exact total_update_le _ _ _ (fun l => List.length_filter_le _ _)
    | removeAll a t => exact total_filter_le _ _
    | lookup a t₁ t₂ => exact total_update_le _ _ _ (fun l => List.length_filter_le _ _)
    | cleanup t =>
      exact Nat.le_trans (total_filter_le _ _)
        (total_map_le (fun e => e.2.filter (fun x => x.expiresAt > t)) (fun e => List.length_filter_le _ _) s)

theorem bound_step {k : Nat} (s : Sys) (a : Act) (hg : Good s.store)
    (hb : s.store.total + s.pend.length ≤ MAX_TOTAL_BINDINGS + k) (hp : s.pend.length ≤ k)
    (hp' : (s.step a).pend.length ≤ k) :
    (s.step a).store.total + (s.step a).pend.length ≤ MAX_TOTAL_BINDINGS + k := by
  cases a with
  | look b now =>
    simp only [Sys.step] at hp' ⊢
    split
    · exact hb
    · rename_i h
      rw [if_neg h] at hp'
      simp only at hp' ⊢
      omega
  | commit i =>
    simp only [Sys.step] at hp' ⊢
    split
    · exact hb
    · rename_i b now hi
      have h1 := total_commit b now hg
      have hlt : i < s.pend.length := (List.getElem?_eq_some_iff.mp hi).1
      have h2 : (s.pend.eraseIdx i).length = s.pend.length - 1 := List.length_eraseIdx_of_lt hlt
      simp only
      omega
  | other op =>
    rcases total_other s.store op hg with h | h
    · show (s.store.step op).total + s.pend.length ≤ _; omega
    · show (s.store.step op).total + s.pend.length ≤ _; omega

theorem bound_run {k : Nat} : ∀ (as : List Act) (s : Sys), Good s.store →
    s.store.total + s.pend.length ≤ MAX_TOTAL_BINDINGS + k → AtMost k s as →
    (s.run as).store.total + (s.run as).pend.length ≤ MAX_TOTAL_BINDINGS + k
  | [], _, _, h, _ => h
  | a :: as, s, hg, h, hm => by
    have hp' : (s.step a).pend.length ≤ k := by
      cases as with
      | nil => exact hm.2
      | cons b bs => exact hm.2.1
    exact bound_run as (s.step a) (good_sys s a hg) (bound_step s a hg h hm.1 hp') hm.2

def bindOf (aor : String) : Binding :=
  { aor := aor.toList, contact := ['c'], expires := SEC, callId := [], cseq := 0, q := ['1'], userAgent := none,
    path := none, flowToken := none, instanceId := none, regId := none }

/-- **C41** under concurrency: however calls interleave, an address-of-record never has two bindings for
one contact nor more than 20 bindings. -/
theorem C41_race_per_aor (as : List Act) (aor : Str) (t₁ t₂ : Nat) :
    ((((init.run as).store.lookup aor t₁ t₂).1).map (·.contact)).Nodup ∧
    (((init.run as).store.lookup aor t₁ t₂).1).length ≤ 20 := by
  have hg : Good (init.run as).store := good_sys_run as init good_init
  rw [lookup_fst, List.map_map, List.length_map]
  exact ⟨(List.Sublist.map _ (List.filter_sublist.trans List.filter_sublist)).nodup (hg.contacts aor),
    Nat.le_trans (List.length_filter_le _ _) (Nat.le_trans (List.length_filter_le _ _) (hg.few aor))⟩

/-- the theorem says something: two calls at once, of three -/
example : AtMost 2 init [.look (bindOf "a") 0, .look (bindOf "b") 0, .commit 1, .look (bindOf "c") 0, .commit 0, .commit 0] ∧
    ((init.run [.look (bindOf "a") 0, .look (bindOf "b") 0, .commit 1, .look (bindOf "c") 0, .commit 0, .commit 0]).store.map
      (fun e => e.2.length)).sum = 3 := by
  constructor
  · simp only [AtMost]; decide +kernel
  · decide +kernel

/-- **C41** under concurrency: with at most `k` calls of `upsert` under way at any time, the store never
holds more than `k` bindings over its limit. -/
theorem C41_race_total (k : Nat) (as : List Act) (h : AtMost k init as) :
    ((init.run as).store.map (fun e => e.2.length)).sum ≤ 100000 + k := by
  have := bound_run as init good_init (by simp [init, Store.total]) h
  have h2 : (init.run as).store.total ≤ 100000 + k := by
    simp only [MAX_TOTAL_BINDINGS] at this; omega
  exact h2

/-! ### The limit is exceeded -/

/-- the `i`-th of many bindings for different addresses -/
def bind (i : Nat) : Binding :=
  { aor := showNat i, contact := ['c'], expires := SEC, callId := [], cseq := 0, q := ['1'], userAgent := none,
    path := none, flowToken := none, instanceId := none, regId := none }

/-- a store with `m` bindings -/
def filled : Nat → Store
  | 0 => []
  | m + 1 => (showNat m, [(bind m).stored 0]) :: filled m

theorem filled_key : ∀ (m : Nat) (e : Str × List Stored), e ∈ filled m → ∃ i, i < m ∧ e.1 = showNat i
  | 0, _, h => by simp [filled] at h
  | m + 1, e, h => by
    rcases List.mem_cons.mp h with rfl | h
    · exact ⟨m, by omega, rfl⟩
    · obtain ⟨i, hi, he⟩ := filled_key m e h
      exact ⟨i, by omega, he⟩

theorem filled_total : ∀ m, (filled m).total = m
  | 0 => rfl
  | m + 1 => by
    rw [filled, total_cons, filled_total m]
    simp only [List.length_singleton]
    omega

theorem filled_remove (m : Nat) : Tbl.remove (filled m) (showNat m) = filled m := by
  unfold Tbl.remove
  rw [List.filter_eq_self]
  intro e he
  obtain ⟨i, hi, h1⟩ := filled_key m e he
  simp only [ne_eq, decide_not, Bool.not_eq_true', decide_eq_false_iff_not]
  intro hh
  have := showNat_inj (h1.symm.trans hh)
  omega

theorem filled_at (m : Nat) : (filled m).at (showNat m) = [] := by
  have := at_remove_self (filled m) (showNat m)
  rw [filled_remove] at this
  exact this

theorem filled_commit (m : Nat) : (filled m).commit (bind m) 0 = filled (m + 1) := by
  unfold Store.commit
  have h : (filled m).at (bind m).aor = [] := filled_at m
  rw [h, List.filter_nil, if_neg (show ¬ (([] : List Stored).length ≥ MAX_BINDINGS_PER_AOR) by decide)]
  show (showNat m, [(bind m).stored 0]) :: Tbl.remove (filled m) (showNat m) = _
  rw [filled_remove]
  rfl

theorem run_append (s : Sys) (as bs : List Act) : s.run (as ++ bs) = (s.run as).run bs := by
  simp [Sys.run, List.foldl_append]

/-- one after the other, up to the limit -/
def oneByOne : Nat → List Act
  | 0 => []
  | m + 1 => oneByOne m ++ [.look (bind m) 0, .commit 0]

theorem oneByOne_run : ∀ m, m ≤ 100000 → init.run (oneByOne m) = ⟨filled m, []⟩
  | 0, _ => rfl
  | m + 1, h => by
    rw [oneByOne, run_append, oneByOne_run m (by omega)]
    have ht : ¬ (filled m).total ≥ MAX_TOTAL_BINDINGS := by
      rw [filled_total]; simp only [MAX_TOTAL_BINDINGS]; omega
    simp only [Sys.run, List.foldl_cons, List.foldl_nil, Sys.step, if_neg ht, List.nil_append,
      List.getElem?_cons_zero, filled_commit, List.eraseIdx_cons_zero]

/-- `n` calls that all check before any of them stores -/
def together (m n : Nat) : List Act := (List.range n).map (fun i => .look (bind (m + i)) 0)

theorem together_run (m n : Nat) (hm : m < 100000) :
    (⟨filled m, []⟩ : Sys).run (together m n) = ⟨filled m, (List.range n).map (fun i => (bind (m + i), 0))⟩ := by
  induction n with
  | zero => rfl
  | succ n ih =>
    have ht : ¬ (filled m).total ≥ MAX_TOTAL_BINDINGS := by
      rw [filled_total]; simp only [MAX_TOTAL_BINDINGS]; omega
    have e : together m (n + 1) = together m n ++ [.look (bind (m + n)) 0] := by
      simp [together, List.range_succ]
    rw [e, run_append, ih]
    simp only [Sys.run, List.foldl_cons, List.foldl_nil, Sys.step, if_neg ht, List.range_succ, List.map_append,
      List.map_cons, List.map_nil]

theorem commits_run : ∀ (n m : Nat),
    (⟨filled m, (List.range n).map (fun i => (bind (m + i), 0))⟩ : Sys).run (List.replicate n (.commit 0)) = ⟨filled (m + n), []⟩
  | 0, m => rfl
  | n + 1, m => by
    have e : (List.range (n + 1)).map (fun i => (bind (m + i), 0)) =
        (bind m, 0) :: (List.range n).map (fun i => (bind (m + 1 + i), 0)) := by
      rw [List.range_succ_eq_map, List.map_cons, List.map_map]
      simp only [Nat.add_zero, List.cons.injEq, true_and]
      apply List.map_congr_left
      intro i _
      simp only [Function.comp]
      rw [show m + i.succ = m + 1 + i by omega]
    rw [e, List.replicate_succ]
    show (Sys.step _ _).run _ = _
    simp only [Sys.step, List.getElem?_cons_zero, List.eraseIdx_cons_zero]
    rw [filled_commit, commits_run n (m + 1), show m + 1 + n = m + (n + 1) by omega]

/-- **C41** fails for the store as a whole: `n` calls that check before any of them stores leave `n - 1`
bindings more than the limit, for every `n`. -/
theorem C41_race_over_limit (n : Nat) : ∃ as : List Act, ((init.run as).store.map (fun e => e.2.length)).sum = 99999 + n := by
  refine ⟨oneByOne 99999 ++ (together 99999 n ++ List.replicate n (.commit 0)), ?_⟩
  rw [run_append, oneByOne_run 99999 (by omega), run_append, together_run 99999 n (by omega), commits_run]
  exact filled_total (99999 + n)

/-! ## Two REGISTER requests at once -/

/-- lib.rs 1929-2033 for a request without wildcard: what the handler reads before it changes anything. -/
def begin_ (req : Request) (d : Draw) (aor : Str) (s : Store) : Option (Ctx × List Str × Store) :=
  match parseCseq req with
  | none => none
  | some cseq =>
    let contacts := contactHeaders req.headers
    if contacts.isEmpty || contacts.any (fun c => trim c == ['*']) then none
    else
      match (if req.headers.contains "Path".toList then (parsePath req.headers).map some else some none) with
      | none => none
      | some path =>
        let (existing, s) := s.lookup aor d.now d.now
        some ({ aor := aor, callId := match req.headers.get "Call-ID".toList with | some v => v | none => [],
                cseq := cseq, userAgent := req.headers.get "User-Agent".toList, path := path, existing := existing },
          contacts, s)

/-- lib.rs 2035-2183: the rest of the handler. -/
def finish_ (w : World) (r : Reg) (req : Request) (d : Draw) (c : Ctx) (contacts : List Str) (s : Store) : Outcome × Store :=
  match r.applyContacts w req d c contacts s with
  | (some o, s) => (o, s)
  | (none, s) => let (bs, s) := s.lookup c.aor d.now d.now; (r.listResponse req d bs, s)

/-- The handler is the one after the other. -/
theorem update_split (w : World) (r : Reg) (req : Request) (d : Draw) (aor : Str) {c : Ctx} {contacts : List Str} {s : Store}
    (h : begin_ req d aor r.store = some (c, contacts, s)) : r.update w req d aor = finish_ w r req d c contacts s := by
  unfold begin_ at h
  unfold Reg.update finish_
  split at h
  · cases h
  · rename_i cseq hc
    simp only [hc] at h ⊢
    split at h
    · cases h
    · rename_i hcs
      simp only [Bool.or_eq_true, not_or, Bool.not_eq_true] at hcs
      rw [hcs.1, hcs.2]
      simp only [Bool.false_eq_true, if_false, Bool.false_and]
      split at h
      · cases h
      · rename_i path hp
        rw [hp]
        simp only [Option.some.injEq, Prod.mk.injEq] at h
        obtain ⟨rfl, rfl, rfl⟩ := h
        rfl

/-- What a lookup shows after two requests have been handled at once: both read, the second stores, the
first stores. -/
def crossed (w : World) (r : Reg) (req1 req2 : Request) (d1 d2 d3 : Draw) (aor : Str) :
    Option (Outcome × Outcome × List Binding) :=
  match begin_ req1 d1 aor r.store with
  | none => none
  | some (c1, l1, s) =>
    match begin_ req2 d2 aor s with
    | none => none
    | some (c2, l2, s) =>
      let (o2, s) := finish_ w r req2 d2 c2 l2 s
      let (o1, s) := finish_ w r req1 d1 c1 l1 s
      some (o1, o2, (s.lookup aor d3.now d3.now).1)

/-- **C43** fails when two requests of one client are handled at once: both read the (empty) list of
bindings, the newer one (CSeq 2) is stored and answered 200, then the older one (CSeq 1) is stored over it
and answered 200 as well. -/
theorem C43_race : ∃ (w : World) (r : Reg) (req1 req2 : Request) (d : Draw) (aor : Str),
    r.store = [] ∧ parseCseq req1 = some 1 ∧ parseCseq req2 = some 2 ∧
    req1.headers.get "Call-ID".toList = req2.headers.get "Call-ID".toList ∧
    (match crossed w r req1 req2 d d d aor with
      | some (o1, o2, bs) => Demo.code o1 == 200 && Demo.code o2 == 200
          && bs.map (fun b => (b.cseq, b.expires / SEC)) == [(1, 100)]
      | none => false) = true := by
  refine ⟨Demo.world, Demo.reg, Demo.register "c" 1 [("Contact", "<sip:bob@1>;expires=100")],
    Demo.register "c" 2 [("Contact", "<sip:bob@1>;expires=200")], Demo.at_ 0, Demo.bob, rfl, ?_, ?_, ?_, ?_⟩
  all_goals decide +kernel

end Race
end Siphon.Registrar
