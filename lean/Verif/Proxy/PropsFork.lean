import Verif.Proxy.LemmasFork
/-!
# C50, C52, C55: what a forking proxy sends upstream
-/
set_option linter.unusedSimpArgs false
namespace Siphon.Proxy
open Spec

/-! ## Histories -/

theorem run_append (c : Ctx) (a b : List Op) :
    c.run (a ++ b) = ((c.run a).1 ++ ((c.run a).2.run b).1, ((c.run a).2.run b).2) := by
  induction a generalizing c with
  | nil => rfl
  | cons o os ih =>
    simp only [List.cons_append, Ctx.run, ih]
    simp [List.append_assoc]

theorem taken_append (c : Ctx) (a b : List Op) : taken c (a ++ b) = taken c a ++ taken (c.run a).2 b := by
  induction a generalizing c with
  | nil => rfl
  | cons o os ih =>
    simp only [List.cons_append, taken, Ctx.run, ih]
    simp [List.append_assoc]

theorem run_snoc (c : Ctx) (a : List Op) (o : Op) :
    c.run (a ++ [o]) = ((c.run a).1 ++ ((c.run a).2.step o).1.toList, ((c.run a).2.step o).2) := by
  rw [run_append]; simp [Ctx.run]

theorem taken_snoc (c : Ctx) (a : List Op) (o : Op) :
    taken c (a ++ [o]) = taken c a ++ (taken1 (c.run a).2 o).toList := by
  rw [taken_append]; simp [taken]

/-- The best response of a context, against the final responses delivered so far. -/
def BestInv (c : Ctx) (past : List (Str × Response)) : Prop := BestOf (past.map Prod.snd) c.bestFinal

theorem bestInv_step (c : Ctx) (past : List (Str × Response)) (h : BestInv c past) (o : Op) :
    BestInv (c.step o).2 (past ++ (taken1 c o).toList) := by
  cases ht : taken1 c o with
  | some p =>
    obtain ⟨id, r⟩ := p
    obtain ⟨_, _, _, _, _, _, hb, _⟩ := step_final_effect c o id r ht
    unfold BestInv
    rw [hb]
    have := bestOf_better h r
    simpa using this
  | none =>
    have : (c.step o).2.bestFinal = c.bestFinal := by
      cases o with
      | add id t =>
        obtain ⟨_, e | ⟨_, _, e⟩⟩ := step_add c id t <;> rw [e]
      | response id r => exact (step_other c (.response id r) trivial ht).2.2.2.2.2.2.1
      | timerC id => exact (step_other c (.timerC id) trivial ht).2.2.2.2.2.2.1
      | transportError id => exact (step_other c (.transportError id) trivial ht).2.2.2.2.2.2.1
    unfold BestInv at h ⊢
    rw [this]
    simpa using h

theorem bestInv_run (c : Ctx) (past : List (Str × Response)) (h : BestInv c past) (ops : List Op) :
    BestInv (c.run ops).2 (past ++ taken c ops) := by
  induction ops generalizing c past with
  | nil => simpa [Ctx.run, taken] using h
  | cons o os ih =>
    have := ih (c.step o).2 _ (bestInv_step c past h o)
    simpa [Ctx.run, taken, List.append_assoc] using this

/-! ## C50 -/

/-- **C50.**  After any history of calls, the response a context keeps is the one RFC 3261 16.7 selects among
the final responses delivered to its branches. -/
theorem C50_kept (original : Request) (host transport : Str) (ops : List Op) :
    let c := ((Ctx.new original host transport).run ops).2
    let got := (taken (Ctx.new original host transport) ops).map Prod.snd
    (got = [] ∧ c.bestFinal = none) ∨ ∃ r, c.bestFinal = some r ∧ Keeps got r := by
  intro c got
  have h := bestInv_run (Ctx.new original host transport) [] rfl ops
  unfold BestInv at h
  simp only [List.nil_append] at h
  change BestOf got c.bestFinal at h
  cases hb : c.bestFinal with
  | none => rw [hb] at h; exact .inl ⟨h, rfl⟩
  | some r => rw [hb] at h; exact .inr ⟨r, rfl, h⟩

theorem pushAll_inner (n : Str) : ∀ (vs : List Str) (hs : Headers),
    ∃ l, (pushAll n vs hs).inner = hs.inner ++ l ∧ ∀ h ∈ l, h.name = n ∧ h.value ∈ vs
  | [], hs => ⟨[], by simp [pushAll], by simp⟩
  | v :: vs, hs => by
    unfold pushAll
    cases hp : hs.push n v with
    | error e =>
      obtain ⟨l, h1, h2⟩ := pushAll_inner n vs hs
      refine ⟨l, h1, fun h hh => ⟨(h2 h hh).1, by simp [(h2 h hh).2]⟩⟩
    | ok hs' =>
      obtain ⟨l, h1, h2⟩ := pushAll_inner n vs hs'
      refine ⟨⟨n, v⟩ :: l, ?_, ?_⟩
      · simp only; rw [h1, C24_push hs hs' n v hp]; simp
      · intro h hh
        rcases List.mem_cons.mp hh with rfl | hh
        · exact ⟨rfl, by simp⟩
        · exact ⟨(h2 h hh).1, by simp [(h2 h hh).2]⟩

/-- Aggregation changes nothing but headers added at the end. -/
theorem aggregate_same (c : Ctx) (r : Response) :
    (c.aggregate r).code = r.code ∧ (c.aggregate r).reason = r.reason ∧ (c.aggregate r).body = r.body ∧
    ∃ l, (c.aggregate r).headers.inner = r.headers.inner ++ l ∧
      ∀ h ∈ l, h.name = "WWW-Authenticate".toList ∨ h.name = "Proxy-Authenticate".toList := by
  refine ⟨rfl, rfl, rfl, ?_⟩
  unfold Ctx.aggregate
  simp only
  obtain ⟨l1, h1, g1⟩ := pushAll_inner "WWW-Authenticate".toList
    ((collect "WWW-Authenticate".toList c.branches (r.headers.getAll "WWW-Authenticate".toList)).drop
      (r.headers.getAll "WWW-Authenticate".toList).length) r.headers
  obtain ⟨l2, h2, g2⟩ := pushAll_inner "Proxy-Authenticate".toList
    ((collect "Proxy-Authenticate".toList c.branches (r.headers.getAll "Proxy-Authenticate".toList)).drop
      (r.headers.getAll "Proxy-Authenticate".toList).length)
    (pushAll "WWW-Authenticate".toList ((collect "WWW-Authenticate".toList c.branches (r.headers.getAll "WWW-Authenticate".toList)).drop
      (r.headers.getAll "WWW-Authenticate".toList).length) r.headers)
  refine ⟨l1 ++ l2, by rw [h2, h1]; simp, ?_⟩
  intro h hh
  rcases List.mem_append.mp hh with hh | hh
  · exact .inl (g1 h hh).1
  · exact .inr (g2 h hh).1

theorem result_some {c : Ctx} {f : Response} (h : c.result = some f) :
    c.outstanding = 0 ∧ ∃ best, c.bestFinal = some best ∧
      f = if best.code = 401 ∨ best.code = 407 then c.aggregate best else best := by
  unfold Ctx.result at h
  split at h
  · rename_i h0
    split at h
    · rename_i best hb
      cases h
      exact ⟨h0, best, hb, rfl⟩
    · cases h
  · cases h

/-- **C50, upstream.**  Whatever final response goes upstream, after any history, is the one RFC 3261 16.7
selects among those delivered so far, unchanged; only a 401 or 407 gets further challenges appended. -/
theorem C50_upstream (original : Request) (host transport : Str) (ops : List Op) (o : Op) (f : Response)
    (hf : (((Ctx.new original host transport).run ops).2.step o).1 = some f) (hfin : 200 ≤ f.code) :
    ∃ r, Keeps ((taken (Ctx.new original host transport) (ops ++ [o])).map Prod.snd) r ∧
      (f = r ∨ ((r.code = 401 ∨ r.code = 407) ∧ f.code = r.code ∧ f.reason = r.reason ∧ f.body = r.body ∧
        ∃ l, f.headers.inner = r.headers.inner ++ l ∧
          ∀ h ∈ l, h.name = "WWW-Authenticate".toList ∨ h.name = "Proxy-Authenticate".toList)) := by
  have hinv := bestInv_run (Ctx.new original host transport) [] rfl ops
  simp only [List.nil_append] at hinv
  rw [taken_snoc]
  generalize ((Ctx.new original host transport).run ops).2 = c at hf hinv
  cases ht : taken1 c o with
  | none =>
    exfalso
    cases o with
    | add id t => rw [(step_add c id t).1] at hf; cases hf
    | response id r => have := (step_other c (.response id r) trivial ht).1 f hf; omega
    | timerC id => have := (step_other c (.timerC id) trivial ht).1 f hf; omega
    | transportError id => have := (step_other c (.transportError id) trivial ht).1 f hf; omega
  | some p =>
    obtain ⟨id, r⟩ := p
    obtain ⟨_, _, _, _, _, _, hb, _, _, _, hout⟩ := step_final_effect c o id r ht
    have hnew := bestOf_better hinv r
    simp only [Option.toList, List.map_append, List.map_cons, List.map_nil]
    split at hout
    · rename_i hc
      rw [hf] at hout
      cases hout
      have : better c.bestFinal f = some f := by simp [better, hc.1]
      rw [this] at hnew
      exact ⟨f, hnew, .inl rfl⟩
    · rw [hf] at hout
      obtain ⟨_, best, e1, e2⟩ := result_some hout.symm
      simp only at e1
      rw [e1] at hnew
      refine ⟨best, hnew, ?_⟩
      split at e2
      · rename_i hc
        obtain ⟨a1, a2, a3, l, a4, a5⟩ := aggregate_same
          ({ c with branches := answered c id r, bestFinal := better c.bestFinal r, outstanding := c.outstanding - 1 } : Ctx) best
        exact .inr ⟨hc, by rw [e2, a1], by rw [e2, a2], by rw [e2, a3], l, by rw [e2, a4], a5⟩
      · exact .inl e2

/-! ## C55 -/

theorem keys_step (c : Ctx) (o : Op) (h : NotAdd o) : (c.step o).2.branches.keys = c.branches.keys := by
  cases ht : taken1 c o with
  | none => exact (step_other c o h ht).2.2.2.2.1
  | some p =>
    obtain ⟨id, r⟩ := p
    obtain ⟨_, _, _, _, _, _, _, _, _, hb, _⟩ := step_final_effect c o id r ht
    rw [hb]
    split
    · rw [keys_cancelRest]; simp [answered]
    · simp [answered]

theorem length_keys {V : Type} (t : Tbl Str V) : t.keys.length = t.length := by simp [Tbl.keys]

/-- **C55.**  A context never has more than 50 branches. -/
theorem C55_bounded (original : Request) (host transport : Str) (ops : List Op) :
    ((Ctx.new original host transport).run ops).2.branches.length ≤ 50 := by
  suffices h : ∀ (c : Ctx), c.branches.length ≤ 50 → (c.run ops).2.branches.length ≤ 50 from
    h _ (by simp [Ctx.new])
  induction ops with
  | nil => intro c h; exact h
  | cons o os ih =>
    intro c h
    show ((c.step o).2.run os).2.branches.length ≤ 50
    apply ih
    cases o with
    | add id t =>
      obtain ⟨_, e | ⟨_, hl, e⟩⟩ := step_add c id t
      · rw [e]; exact h
      · rw [e]
        have := Tbl.length_insert_le c.branches id (Branch.mk t .trying none)
        show (c.branches.insert id _).length ≤ 50
        omega
    | response id r => rw [← length_keys, keys_step c (.response id r) trivial, length_keys]; exact h
    | timerC id => rw [← length_keys, keys_step c (.timerC id) trivial, length_keys]; exact h
    | transportError id => rw [← length_keys, keys_step c (.transportError id) trivial, length_keys]; exact h

theorem terminated_stays (c : Ctx) (h : c.terminated = true) (ops : List Op) :
    (c.run ops).2.terminated = true ∧ (c.run ops).2.branches.keys = c.branches.keys := by
  induction ops generalizing c with
  | nil => exact ⟨h, rfl⟩
  | cons o os ih =>
    have hstep : (c.step o).2.terminated = true ∧ (c.step o).2.branches.keys = c.branches.keys := by
      have go : NotAdd o → (c.step o).2.terminated = true ∧ (c.step o).2.branches.keys = c.branches.keys := by
        intro hn
        refine ⟨?_, keys_step c o hn⟩
        cases ht : taken1 c o with
        | none => rw [(step_other c o hn ht).2.2.2.2.2.2.2.2]; exact h
        | some p =>
          obtain ⟨id, r⟩ := p
          obtain ⟨_, _, _, _, _, _, _, _, ht', _⟩ := step_final_effect c o id r ht
          rw [ht', h]; rfl
      cases o with
      | add id t =>
        obtain ⟨_, e | ⟨h', _, e⟩⟩ := step_add c id t
        · rw [e]; exact ⟨h, rfl⟩
        · rw [h] at h'; cases h'
      | response id r => exact go trivial
      | timerC id => exact go trivial
      | transportError id => exact go trivial
    obtain ⟨a, b⟩ := ih (c.step o).2 hstep.1
    exact ⟨a, b.trans hstep.2⟩

/-- **C55, after a 6xx.**  Once a 6xx was delivered to a branch, no call adds a branch any more, and
`add_branch` says so. -/
theorem C55_no_branch_after_6xx (original : Request) (host transport : Str) (before after : List Op)
    (id : Str) (r : Response) (h6 : 600 ≤ r.code ∧ r.code < 700)
    (hk : Knows ((Ctx.new original host transport).run before).2 id) :
    let c := ((Ctx.new original host transport).run (before ++ .response id r :: after)).2
    c.branches.keys = ((Ctx.new original host transport).run before).2.branches.keys ∧
      ∀ id' b, c.addBranch id' b = (.error .terminatedBy6xx, c) := by
  intro c
  have hc : c = ((((Ctx.new original host transport).run before).2.step (.response id r)).2.run after).2 := by
    show ((Ctx.new original host transport).run (before ++ .response id r :: after)).2 = _
    rw [run_append]; rfl
  have ht : taken1 ((Ctx.new original host transport).run before).2 (.response id r) = some (id, r) := by
    simp only [taken1]
    rw [if_pos ⟨hk, by omega⟩]
  have hkeys := keys_step ((Ctx.new original host transport).run before).2 (.response id r) trivial
  generalize hd : ((Ctx.new original host transport).run before).2 = d at hc ht hkeys
  obtain ⟨_, _, _, _, _, _, _, _, hterm, _⟩ := step_final_effect d _ id r ht
  have h6' : is6xx r = true := (is6xx_iff r).mpr (by unfold Class; omega)
  rw [h6', Bool.or_true] at hterm
  obtain ⟨a, b⟩ := terminated_stays _ hterm after
  rw [← hc] at a b
  refine ⟨b.trans hkeys, ?_⟩
  intro id' b'
  simp only [Ctx.addBranch, a, if_true]

/-- **C55, contexts.**  The table of contexts never holds more than 10000. -/
inductive TableOp
  | start (branch : Str) (c : Ctx) (now : Nat)
  | remove (branch : Str)
  | cleanup (now : Nat)

/-- One call on the table. -/
def TableOp.run (t : Contexts) : TableOp → Contexts
  | .start b c now => (startContext t b c now).2
  | .remove b => removeContext t b
  | .cleanup now => cleanupOld t now

theorem C55_contexts (ops : List TableOp) : (ops.foldl TableOp.run []).length ≤ 10000 := by
  suffices h : ∀ (t : Contexts), t.length ≤ 10000 → (ops.foldl TableOp.run t).length ≤ 10000 from h [] (by simp)
  induction ops with
  | nil => intro t h; exact h
  | cons o os ih =>
    intro t h
    apply ih
    cases o with
    | start b c now =>
      simp only [TableOp.run, startContext]
      split
      · exact h
      · rename_i hl
        have := Tbl.length_insert_le t b (c, now)
        simp only [MAX_PROXY_CONTEXTS] at hl
        show (Tbl.insert t b (c, now)).length ≤ 10000
        omega
    | remove b => exact Nat.le_trans (Tbl.length_remove_le t b) h
    | cleanup now => exact Nat.le_trans (List.length_filter_le _ _) h

/-! ## C52 -/

theorem nodup_subset_length {α : Type} [DecidableEq α] : ∀ (l m : List α), l.Nodup → (∀ a ∈ l, a ∈ m) →
    l.length ≤ m.length
  | [], _, _, _ => by simp
  | a :: l, m, hn, hs => by
    have ha : a ∈ m := hs a (by simp)
    have := nodup_subset_length l (m.erase a) (List.nodup_cons.mp hn).2 (fun b hb => by
      refine (List.mem_erase_of_ne ?_).mpr (hs b (by simp [hb]))
      rintro rfl; exact (List.nodup_cons.mp hn).1 hb)
    rw [List.length_erase_of_mem ha] at this
    have : 0 < m.length := List.length_pos_of_mem ha
    simp only [List.length_cons]
    omega

/-- A list without repetition inside another of the same length contains all of it. -/
theorem nodup_full {α : Type} [DecidableEq α] (l m : List α) (hn : l.Nodup) (hs : ∀ a ∈ l, a ∈ m)
    (hl : m.length ≤ l.length) : ∀ a ∈ m, a ∈ l := by
  intro a ha
  by_cases hc : a ∈ l
  · exact hc
  · exfalso
    have := nodup_subset_length l (m.erase a) hn (fun b hb => by
      refine (List.mem_erase_of_ne ?_).mpr (hs b hb)
      rintro rfl; exact hc hb)
    rw [List.length_erase_of_mem ha] at this
    have : 0 < m.length := List.length_pos_of_mem ha
    omega

/-- The count of outstanding branches, when no branch finishes twice. -/
structure CountInv (c : Ctx) (ids past : List Str) : Prop where
  nodup : ids.Nodup
  keys : c.branches.keys.Perm ids
  once : past.Nodup
  sub : ∀ id ∈ past, id ∈ ids
  count : c.outstanding + past.length = ids.length

theorem countInv_step {c : Ctx} {ids past : List Str} (h : CountInv c ids past) (o : Op) (hn : NotAdd o)
    (hd : (past ++ (taken1 c o).toList.map Prod.fst).Nodup) :
    CountInv (c.step o).2 ids (past ++ (taken1 c o).toList.map Prod.fst) := by
  have hkeys : (c.step o).2.branches.keys.Perm ids := by rw [keys_step c o hn]; exact h.keys
  cases ht : taken1 c o with
  | none =>
    have ho := (step_other c o hn ht).2.2.2.2.2.2.2.1
    refine ⟨h.nodup, hkeys, by simpa using h.once, by simpa using h.sub, ?_⟩
    rw [ho]; simpa using h.count
  | some p =>
    obtain ⟨id, r⟩ := p
    obtain ⟨hk, _, _, _, _, _, _, hout, _⟩ := step_final_effect c o id r ht
    rw [ht] at hd
    simp only [Option.toList, List.map_cons, List.map_nil] at hd ⊢
    have hsub : ∀ x ∈ past ++ [id], x ∈ ids := by
      intro x hx
      rcases List.mem_append.mp hx with hx | hx
      · exact h.sub x hx
      · rw [List.mem_singleton.mp hx]; exact h.keys.mem_iff.mp hk
    have hl := nodup_subset_length _ _ hd hsub
    simp only [List.length_append, List.length_cons, List.length_nil] at hl
    refine ⟨h.nodup, hkeys, hd, hsub, ?_⟩
    rw [hout]
    have := h.count
    simp only [List.length_append, List.length_cons, List.length_nil]
    omega

theorem countInv_run {c : Ctx} {ids past : List Str} (h : CountInv c ids past) (ops : List Op)
    (hn : ∀ o ∈ ops, NotAdd o) (hd : (past ++ (taken c ops).map Prod.fst).Nodup) :
    CountInv (c.run ops).2 ids (past ++ (taken c ops).map Prod.fst) := by
  induction ops generalizing c past with
  | nil => simpa [Ctx.run, taken] using h
  | cons o os ih =>
    simp only [taken, List.map_append, ← List.append_assoc] at hd ⊢
    exact ih (countInv_step h o (hn o (by simp)) (List.nodup_append.mp hd).1) (fun x hx => hn x (by simp [hx])) hd

theorem fresh_inv {c : Ctx} {ids : List Str} (h : Fresh c ids) : CountInv c ids [] :=
  ⟨h.1, h.2.1, List.nodup_nil, by simp, by simpa using h.2.2.1⟩

theorem split_nodup {l a b : List Str} (h : l = a ++ b) (hn : l.Nodup) : a.Nodup := by
  subst h; exact (List.nodup_append.mp hn).1

/-- What can be said about a plain final response that goes upstream. -/
theorem plain_out {c : Ctx} {ids past : List Str} (h : CountInv c ids past) (o : Op) (hn : NotAdd o)
    (hd : (past ++ (taken1 c o).toList.map Prod.fst).Nodup) (f : Response) (hf : (c.step o).1 = some f)
    (hp : Plain f) :
    (taken1 c o ≠ none ∧ (c.step o).2.outstanding = 0) ∧
      ∀ id ∈ ids, id ∈ past ++ (taken1 c o).toList.map Prod.fst := by
  have hi := countInv_step h o hn hd
  cases ht : taken1 c o with
  | none =>
    exfalso
    have := (step_other c o hn ht).1 f hf
    have := hp.1
    omega
  | some p =>
    obtain ⟨id, r⟩ := p
    obtain ⟨_, _, _, _, _, _, _, hout, _, _, hres⟩ := step_final_effect c o id r ht
    have h0 : (c.step o).2.outstanding = 0 := by
      split at hres
      · rename_i hc
        rw [hf] at hres
        cases hres
        have := hp.1; have := hp.2
        rcases hc.2 with hc | hc
        · have := (is2xx_iff _).mp hc; unfold Class at this; omega
        · have := (is6xx_iff _).mp hc; unfold Class at this; omega
      · rw [hf] at hres
        obtain ⟨h0, _⟩ := result_some hres.symm
        rw [hout]; exact h0
    refine ⟨⟨by simp, h0⟩, ?_⟩
    rw [ht] at hi
    have hcount := hi.count
    rw [h0] at hcount
    exact nodup_full _ _ hi.once hi.sub (by omega)

/-- **C52, waiting (partial).**  In a fork whose branches were all added before the first answer and none of
which produces two final responses, a final response other than 2xx and 6xx goes upstream only after every
branch has produced its final response.  Missing: histories in which a branch produces a second final response
(`C52_retransmission`) or a branch is added later (`C52_late_branch`). -/
theorem C52_waits_partial (c : Ctx) (ids : List Str) (hfresh : Fresh c ids) (before : List Op) (o : Op)
    (hn : ∀ x ∈ before ++ [o], NotAdd x) (honce : ((taken c (before ++ [o])).map Prod.fst).Nodup)
    (f : Response) (hf : ((c.run before).2.step o).1 = some f) (hp : Plain f) :
    ∀ id ∈ ids, ∃ r, (id, r) ∈ taken c (before ++ [o]) := by
  have hd := honce
  rw [taken_snoc, List.map_append] at hd
  have hi := countInv_run (fresh_inv hfresh) before (fun x hx => hn x (by simp [hx]))
    (by simpa using (List.nodup_append.mp hd).1)
  simp only [List.nil_append] at hi
  obtain ⟨_, h⟩ := plain_out hi o (hn o (by simp)) hd f hf hp
  intro id hid
  have := h id hid
  rw [← List.map_append, ← taken_snoc] at this
  obtain ⟨p, hp', rfl⟩ := List.mem_map.mp this
  exact ⟨p.2, hp'⟩

/-- The plain final responses among those sent upstream. -/
def plains (l : List Response) : List Response := l.filter (fun r => decide (300 ≤ r.code ∧ r.code < 600))

theorem plains_append (a b : List Response) : plains (a ++ b) = plains a ++ plains b := by simp [plains]

theorem mem_plains {l : List Response} {r : Response} : r ∈ plains l ↔ r ∈ l ∧ Plain r := by
  simp [plains, Plain]

/-- With nothing left to deliver, no plain response goes upstream. -/
theorem no_more {c : Ctx} {ids past : List Str} (h : CountInv c ids past) (h0 : c.outstanding = 0)
    (ops : List Op) (hn : ∀ o ∈ ops, NotAdd o) (hd : (past ++ (taken c ops).map Prod.fst).Nodup) :
    plains (c.run ops).1 = [] ∧ taken c ops = [] := by
  induction ops generalizing c past with
  | nil => exact ⟨rfl, rfl⟩
  | cons o os ih =>
    simp only [taken, List.map_append, ← List.append_assoc] at hd
    have hd1 := (List.nodup_append.mp hd).1
    have hnone : taken1 c o = none := by
      cases ht : taken1 c o with
      | none => rfl
      | some p =>
        exfalso
        rw [ht] at hd1
        simp only [Option.toList, List.map_cons, List.map_nil] at hd1
        obtain ⟨hk, _⟩ := step_final_effect c o p.1 p.2 ht
        have hin : p.1 ∈ past := nodup_full _ _ h.once h.sub (by have := h.count; omega) p.1 (h.keys.mem_iff.mp hk)
        have := (List.nodup_append.mp hd1).2.2 p.1 hin p.1 (by simp)
        exact this rfl
    have hstep := countInv_step h o (hn o (by simp)) hd1
    have hso := step_other c o (hn o (by simp)) hnone
    obtain ⟨r1, r2⟩ := ih hstep (by rw [hso.2.2.2.2.2.2.2.1]; exact h0) (fun x hx => hn x (by simp [hx])) hd
    refine ⟨?_, by simp [taken, hnone, r2]⟩
    show plains ((c.step o).1.toList ++ ((c.step o).2.run os).1) = []
    rw [plains_append, r1, List.append_nil]
    cases hso1 : (c.step o).1 with
    | none => rfl
    | some f =>
      have := hso.1 f hso1
      simp [plains]
      omega

theorem at_most_one {c : Ctx} {ids past : List Str} (h : CountInv c ids past) (ops : List Op)
    (hn : ∀ o ∈ ops, NotAdd o) (hd : (past ++ (taken c ops).map Prod.fst).Nodup) :
    (plains (c.run ops).1).length ≤ 1 := by
  induction ops generalizing c past with
  | nil => simp [Ctx.run, plains]
  | cons o os ih =>
    simp only [taken, List.map_append, ← List.append_assoc] at hd
    have hd1 := (List.nodup_append.mp hd).1
    have hstep := countInv_step h o (hn o (by simp)) hd1
    show (plains ((c.step o).1.toList ++ ((c.step o).2.run os).1)).length ≤ 1
    rw [plains_append]
    by_cases hp : ∃ f, (c.step o).1 = some f ∧ Plain f
    · obtain ⟨f, hf, hpf⟩ := hp
      obtain ⟨⟨_, h0⟩, _⟩ := plain_out h o (hn o (by simp)) hd1 f hf hpf
      obtain ⟨r1, _⟩ := no_more hstep h0 os (fun x hx => hn x (by simp [hx])) hd
      rw [r1, List.append_nil, hf]
      exact Nat.le_trans (List.length_filter_le _ _) (by simp)
    · have : plains (c.step o).1.toList = [] := by
        cases hs : (c.step o).1 with
        | none => rfl
        | some f =>
          have : ¬ Plain f := fun h => hp ⟨f, hs, h⟩
          simp only [Plain] at this
          simp [plains]
          omega
      rw [this, List.nil_append]
      exact ih hstep (fun x hx => hn x (by simp [hx])) hd

/-- **C52, at most one (partial).**  In such a fork at most one final response other than 2xx and 6xx goes
upstream. -/
theorem C52_at_most_one_partial (c : Ctx) (ids : List Str) (hfresh : Fresh c ids) (ops : List Op)
    (hn : ∀ x ∈ ops, NotAdd x) (honce : ((taken c ops).map Prod.fst).Nodup) :
    ((c.run ops).1.filter (fun r => decide (300 ≤ r.code ∧ r.code < 600))).length ≤ 1 :=
  at_most_one (fresh_inv hfresh) ops hn (by simpa using honce)

theorem keeps_plain {l : List Response} {r : Response} (h : Keeps l r) (hp : ∀ x ∈ l, Plain x) : Plain r :=
  hp r (keeps_mem h)

/-- The last delivery, with nothing outstanding afterwards, sends the kept response upstream. -/
theorem exactly_one {c : Ctx} {ids past : List Str} (h : CountInv c ids past) (hist : List Response)
    (hb : BestOf hist c.bestFinal) (hne : c.outstanding ≠ 0)
    (ops : List Op) (hn : ∀ o ∈ ops, NotAdd o) (hd : (past ++ (taken c ops).map Prod.fst).Nodup)
    (hall : ∀ id ∈ ids, id ∈ past ++ (taken c ops).map Prod.fst) (hpl : ∀ x ∈ hist ++ (taken c ops).map Prod.snd, Plain x) :
    (plains (c.run ops).1).length = 1 := by
  induction ops generalizing c past hist with
  | nil =>
    exfalso
    simp only [taken, List.map_nil, List.append_nil] at hall
    have := nodup_subset_length ids past h.nodup hall
    have := h.count
    omega
  | cons o os ih =>
    simp only [taken, List.map_append, ← List.append_assoc] at hd hall hpl
    have hd1 := (List.nodup_append.mp hd).1
    have hno := hn o (by simp)
    have hstep := countInv_step h o hno hd1
    show (plains ((c.step o).1.toList ++ ((c.step o).2.run os).1)).length = 1
    rw [plains_append]
    cases ht : taken1 c o with
    | none =>
      rw [ht] at hstep hd hall hpl
      simp only [Option.toList, List.map_nil, List.append_nil] at hstep hd hall hpl
      have hso := step_other c o hno ht
      have : plains (c.step o).1.toList = [] := by
        cases hs : (c.step o).1 with
        | none => rfl
        | some f =>
          have := hso.1 f hs
          simp [plains]
          omega
      rw [this, List.nil_append]
      exact ih hstep hist (by rw [hso.2.2.2.2.2.2.1]; exact hb) (by rw [hso.2.2.2.2.2.2.2.1]; exact hne)
        (fun x hx => hn x (by simp [hx])) hd hall hpl
    | some p =>
      obtain ⟨id, r⟩ := p
      rw [ht] at hstep hd hall hpl
      simp only [Option.toList, List.map_cons, List.map_nil] at hstep hd hall hpl
      obtain ⟨_, _, _, _, _, _, hbest, hout, _, _, hres⟩ := step_final_effect c o id r ht
      have hr : Plain r := hpl r (by simp)
      have hnot : ¬ (selectBest c.bestFinal r = true ∧ (is2xx r = true ∨ is6xx r = true)) := by
        rintro ⟨_, hc | hc⟩
        · have := (is2xx_iff _).mp hc; unfold Class at this; have := hr.1; omega
        · have := (is6xx_iff _).mp hc; unfold Class at this; have := hr.2; omega
      rw [if_neg hnot] at hres
      have hb' := bestOf_better hb r
      by_cases h1 : c.outstanding = 1
      · have h0 : (c.step o).2.outstanding = 0 := by rw [hout]; omega
        obtain ⟨r1, _⟩ := no_more hstep h0 os (fun x hx => hn x (by simp [hx])) hd
        rw [r1, List.append_nil]
        cases hbb : better c.bestFinal r with
        | none =>
          rw [hbb] at hb'
          have : hist ++ [r] = [] := hb'
          simp at this
        | some best =>
          rw [hbb] at hb' hres
          have hbp : Plain best := keeps_plain hb' (fun x hx => hpl x (by
            rcases List.mem_append.mp hx with hx | hx
            · simp [hx]
            · rw [List.mem_singleton.mp hx]; simp))
          have hcode : ∃ f, (c.step o).1 = some f ∧ f.code = best.code := by
            rw [hres]
            unfold Ctx.result
            simp only [show c.outstanding - 1 = 0 by omega, if_true]
            by_cases h4 : best.code = 401 ∨ best.code = 407
            · exact ⟨_, rfl, by rw [if_pos h4]; rfl⟩
            · exact ⟨_, rfl, by rw [if_neg h4]⟩
          obtain ⟨f, hf, hfc⟩ := hcode
          rw [hf]
          simp only [Option.toList, plains]
          rw [List.filter_cons_of_pos (by rw [hfc]; exact decide_eq_true hbp)]
          rfl
      · have hres' : (c.step o).1 = none := by
          rw [hres]
          unfold Ctx.result
          rw [if_neg (by show ¬ (c.outstanding - 1 = 0); omega)]
        rw [hres']
        simp only [Option.toList, plains, List.filter_nil, List.nil_append]
        exact ih hstep (hist ++ [r]) (by rw [hbest]; exact hb') (by rw [hout]; omega)
          (fun x hx => hn x (by simp [hx])) hd hall hpl

/-- **C52, exactly one (partial).**  In such a fork, when every branch has answered and no answer was 2xx or
6xx, exactly one final response has gone upstream. -/
theorem C52_exactly_one_partial (c : Ctx) (ids : List Str) (hfresh : Fresh c ids) (hne : ids ≠ []) (ops : List Op)
    (hn : ∀ x ∈ ops, NotAdd x) (honce : ((taken c ops).map Prod.fst).Nodup)
    (hall : ∀ id ∈ ids, ∃ r, (id, r) ∈ taken c ops) (hplain : ∀ p ∈ taken c ops, Plain p.2) :
    ((c.run ops).1.filter (fun r => decide (300 ≤ r.code ∧ r.code < 600))).length = 1 := by
  refine exactly_one (fresh_inv hfresh) [] (by rw [hfresh.2.2.2.1]; rfl) ?_ ops hn (by simpa using honce) ?_ ?_
  · rw [hfresh.2.2.1]
    intro h; exact hne (List.eq_nil_of_length_eq_zero h)
  · intro id hid
    obtain ⟨r, hr⟩ := hall id hid
    simp only [List.nil_append]
    exact List.mem_map.mpr ⟨(id, r), hr, rfl⟩
  · intro x hx
    simp only [List.nil_append] at hx
    obtain ⟨p, hp, rfl⟩ := List.mem_map.mp hx
    exact hplain p hp

theorem keeps_success {l : List Response} {r : Response} (h : Keeps l r)
    (hx : ∃ x ∈ l, Class x 2 ∨ Class x 6) : Class r 2 ∨ Class r 6 := by
  obtain ⟨x, hx, hc⟩ := hx
  rcases h with ⟨h6, _⟩ | ⟨_, h2, _⟩ | ⟨hno, _⟩
  · exact .inr h6
  · exact .inl h2
  · rcases hc with hc | hc
    · exact absurd hc (hno x hx).2
    · exact absurd hc (hno x hx).1

theorem none_with_success {c : Ctx} {ids past : List Str} (h : CountInv c ids past) (hist : List Response)
    (hb : BestOf hist c.bestFinal) (ops : List Op) (hn : ∀ o ∈ ops, NotAdd o)
    (hd : (past ++ (taken c ops).map Prod.fst).Nodup)
    (hx : ∃ x ∈ hist ++ (taken c ops).map Prod.snd, Class x 2 ∨ Class x 6) : plains (c.run ops).1 = [] := by
  induction ops generalizing c past hist with
  | nil => rfl
  | cons o os ih =>
    simp only [taken, List.map_append, ← List.append_assoc] at hd hx
    have hd1 := (List.nodup_append.mp hd).1
    have hno := hn o (by simp)
    have hstep := countInv_step h o hno hd1
    have hbest : BestOf (hist ++ (taken1 c o).toList.map Prod.snd) (c.step o).2.bestFinal := by
      cases ht : taken1 c o with
      | none => rw [(step_other c o hno ht).2.2.2.2.2.2.1]; simpa using hb
      | some p =>
        obtain ⟨_, _, _, _, _, _, hbest, _⟩ := step_final_effect c o p.1 p.2 ht
        rw [hbest]; exact bestOf_better hb p.2
    show plains ((c.step o).1.toList ++ ((c.step o).2.run os).1) = []
    rw [plains_append, ih hstep _ hbest (fun x hx => hn x (by simp [hx])) hd hx, List.append_nil]
    cases hs : (c.step o).1 with
    | none => rfl
    | some f =>
      by_cases hp : Plain f
      · exfalso
        obtain ⟨⟨hne, h0⟩, _⟩ := plain_out h o hno hd1 f hs hp
        obtain ⟨_, hnil⟩ := no_more hstep h0 os (fun x hx => hn x (by simp [hx])) hd
        rw [hnil] at hx
        simp only [List.map_nil, List.append_nil] at hx
        cases ht : taken1 c o with
        | none => exact hne ht
        | some p =>
          rw [ht] at hx hbest
          obtain ⟨_, _, _, _, _, _, hb2, _, _, _, hres⟩ := step_final_effect c o p.1 p.2 ht
          have hfc : ∃ best, (c.step o).2.bestFinal = some best ∧ f.code = best.code := by
            split at hres
            · rename_i hc
              rw [hs] at hres
              refine ⟨p.2, by rw [hb2]; simp [better, hc.1], by cases hres; rfl⟩
            · rw [hs] at hres
              obtain ⟨_, best, e1, e2⟩ := result_some hres.symm
              refine ⟨best, by rw [hb2]; exact e1, ?_⟩
              rw [e2]
              split <;> rfl
          obtain ⟨best, e1, e2⟩ := hfc
          rw [e1] at hbest
          have := keeps_success hbest hx
          have := hp.1; have := hp.2
          unfold Class at *
          omega
      · simp only [Plain] at hp
        simp [plains]
        omega

/-- **C52 with a success or a global failure (partial).**  In such a fork, if some branch answered 2xx or 6xx,
no other final response goes upstream at all. -/
theorem C52_none_partial (c : Ctx) (ids : List Str) (hfresh : Fresh c ids) (ops : List Op)
    (hn : ∀ x ∈ ops, NotAdd x) (honce : ((taken c ops).map Prod.fst).Nodup)
    (hx : ∃ p ∈ taken c ops, Class p.2 2 ∨ Class p.2 6) :
    (c.run ops).1.filter (fun r => decide (300 ≤ r.code ∧ r.code < 600)) = [] := by
  obtain ⟨p, hp, hc⟩ := hx
  exact none_with_success (fresh_inv hfresh) [] (by rw [hfresh.2.2.2.1]; rfl) ops hn (by simpa using honce)
    ⟨p.2, by simpa using ⟨p.1, hp⟩, hc⟩

/-! ## Cases -/

namespace Demo

/-- A header. -/
def hd (n v : String) : Header := ⟨n.toList, v.toList⟩

/-- An INVITE as it reaches the proxy. -/
def invite : Request :=
  { method := .invite, uri := "sip:bob@example.com".toList,
    headers := ⟨[hd "Via" "SIP/2.0/UDP client.example.com;branch=z9hG4bKclient1;rport", hd "Max-Forwards" "70",
      hd "To" "<sip:bob@example.com>", hd "From" "<sip:alice@example.com>;tag=a1", hd "Call-ID" "call-1",
      hd "CSeq" "7 INVITE"]⟩, body := [] }

/-- A response. -/
def resp (code : Nat) : Response := { code := code, reason := "x".toList, headers := ⟨[hd "To" "<sip:bob@example.com>;tag=b"]⟩, body := [] }

def idA : Str := "z9hG4bKa".toList
def idB : Str := "z9hG4bKb".toList

/-- A fork to two targets. -/
def two : Ctx :=
  ((Ctx.new invite "proxy.example.com".toList "UDP".toList).run
    [.add idA "sip:bob@one.example.com".toList, .add idB "sip:bob@two.example.com".toList]).2

/-- The codes that went upstream. -/
def codes (c : Ctx) (ops : List Op) : List Nat := (c.run ops).1.map Response.code

end Demo
open Demo

/-- The hypotheses of the C52 theorems hold for a fork to two targets. -/
theorem demo_fresh : Fresh two [idA, idB] := by
  refine ⟨by decide +kernel, ?_, by decide +kernel, by decide +kernel, by decide +kernel⟩
  have : two.branches.keys = [idB, idA] := by decide +kernel
  rw [this]
  exact List.Perm.swap _ _ _

example : ((taken two [.response idA (resp 180), .response idA (resp 486), .response idB (resp 404)]).map Prod.fst).Nodup := by
  decide +kernel
example : codes two [.response idA (resp 180), .response idA (resp 486), .response idB (resp 302)] = [180, 302] := by
  decide +kernel
example : codes two [.response idA (resp 486), .response idB (resp 200)] = [200] := by decide +kernel
/-- Timer C and a transport error deliver responses of the proxy's own. -/
example : codes two [.response idA (resp 180), .timerC idA, .transportError idB] = [180, 408] := by decide +kernel
example : (taken two [.response idA (resp 180), .timerC idA, .transportError idB]).map (fun p => p.2.code) = [408, 503] := by
  decide +kernel
example : codes two [.response idA (resp 603), .response idB (resp 404)] = [603, 603] := by decide +kernel
example : codes two [.response idA (resp 603), .add "z9hG4bKc".toList "sip:c@example.com".toList,
    .response "z9hG4bKc".toList (resp 200)] = [603] := by decide +kernel

/-- **C52 fails for a retransmitted final response.**  Each copy counts as one more branch that has answered:
after two copies of a 486 from one branch the 486 goes upstream although the other branch has not answered,
and when that one accepts the call, its 200 goes upstream too. -/
theorem C52_retransmission :
    codes two [.response idA (resp 486), .response idA (resp 486), .response idB (resp 200)] = [486, 200] := by
  decide +kernel

/-- **C52 fails for a branch added after the others have answered**, the way a serial search would: two final
responses go upstream. -/
theorem C52_late_branch :
    codes two [.response idA (resp 486), .response idB (resp 486), .add "z9hG4bKc".toList "sip:c@example.com".toList,
      .response "z9hG4bKc".toList (resp 404)] = [486, 486] := by decide +kernel

/-- A branch id that is used twice replaces the branch but is counted twice: nothing ever goes upstream. -/
theorem C52_same_id_twice :
    codes (Ctx.new invite "proxy.example.com".toList "UDP".toList)
      [.add idA "sip:bob@one.example.com".toList, .add idA "sip:bob@two.example.com".toList,
       .response idA (resp 486)] = [] := by decide +kernel

/-- A cancelled branch that answers after the 2xx makes the 2xx go upstream a second time. -/
theorem C52_success_repeated :
    codes two [.response idA (resp 200), .response idB (resp 487)] = [200, 200] := by decide +kernel

/-- A provisional response that arrives late reopens a branch that has answered: Timer C then answers for it
again, and the 486 goes upstream although the other branch has not answered. -/
theorem C52_late_provisional :
    codes two [.response idA (resp 180), .response idA (resp 486), .response idA (resp 180), .timerC idA] = [180, 180, 486] := by
  decide +kernel

end Siphon.Proxy
