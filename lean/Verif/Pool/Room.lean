import Verif.Pool.Runs
set_option linter.unusedSimpArgs false
set_option linter.unusedSectionVars false
/-!
# Lemmas: making room
-/
namespace Siphon.Pool
variable {K : Type} [DecidableEq K]

theorem removeKey_avail (s : State K) (k : K) :
    (s.removeKey k).avail = s.avail + (if (Tbl.get s.map k).isSome then 1 else 0) := by
  unfold State.removeKey
  cases h : Tbl.get s.map k with
  | none => simp
  | some e => simp [State.drop]

theorem removeKeys_avail_le : ∀ (ks : List K) (s : State K), s.avail ≤ (ks.foldl State.removeKey s).avail
  | [], _ => Nat.le_refl _
  | k :: ks, s => by
    rw [List.foldl_cons]
    have := removeKeys_avail_le ks (s.removeKey k)
    rw [removeKey_avail] at this
    omega

theorem removeKeys_avail_pos : ∀ (ks : List K) (s : State K) (k : K), k ∈ ks → (Tbl.get s.map k).isSome = true →
    s.avail < (ks.foldl State.removeKey s).avail
  | [], _, _, h, _ => by cases h
  | k' :: ks, s, k, h, hs => by
    rw [List.foldl_cons]
    by_cases hk : k = k'
    · subst hk
      have := removeKeys_avail_le ks (s.removeKey k)
      rw [removeKey_avail, if_pos hs] at this
      omega
    · have hm : k ∈ ks := by
        rcases List.mem_cons.mp h with h | h
        · exact absurd h hk
        · exact h
      have := removeKeys_avail_pos ks (s.removeKey k') k hm (by rw [removeKey_map, Tbl.get_remove_ne _ hk]; exact hs)
      rw [removeKey_avail] at this
      omega

theorem removeKeys_none : ∀ (ks : List K) (s : State K), (∀ k, k ∈ ks → Tbl.get s.map k = none) → ks.foldl State.removeKey s = s
  | [], _, _ => rfl
  | k :: ks, s, h => by
    have : s.removeKey k = s := by
      unfold State.removeKey
      rw [h k List.mem_cons_self]
    rw [List.foldl_cons, this]
    exact removeKeys_none ks s (fun k' hk => h k' (List.mem_cons_of_mem _ hk))

/-! ## Which are evicted -/

def candidates (cfg : Cfg K) (s : State K) : List (K × Entry) := s.map.filter (fun p => cfg.evictable p.1)

theorem victims_split (cfg : Cfg K) (s : State K) : ∃ out kept : List (K × Entry),
    victims cfg s = out.map (·.1) ∧ (out ++ kept).Perm (candidates cfg s) ∧
    out.length = min (max (cfg.max / 10) 1) (candidates cfg s).length ∧
    ∀ p q, p ∈ out → q ∈ kept → p.2.lastUsed ≤ q.2.lastUsed := by
  refine ⟨(sortBy (fun p : K × Entry => p.2.lastUsed) (candidates cfg s)).take (max (cfg.max / 10) 1),
    (sortBy (fun p : K × Entry => p.2.lastUsed) (candidates cfg s)).drop (max (cfg.max / 10) 1), rfl, ?_, ?_, ?_⟩
  · rw [List.take_append_drop]
    exact sortBy_perm _ _
  · rw [List.length_take, length_sortBy]
  · intro p q hp hq
    have := sortBy_sorted (fun p : K × Entry => p.2.lastUsed) (candidates cfg s)
    rw [← List.take_append_drop (max (cfg.max / 10) 1) (sortBy _ _), List.pairwise_append] at this
    exact this.2.2 p hp q hq

theorem mem_victims {cfg : Cfg K} {s : State K} (hn : (Tbl.keys s.map).Nodup) {k : K} (h : k ∈ victims cfg s) :
    ∃ e, Tbl.get s.map k = some e ∧ cfg.evictable k = true := by
  obtain ⟨out, kept, h1, h2, _, _⟩ := victims_split cfg s
  rw [h1] at h
  obtain ⟨⟨k', e⟩, hm, rfl⟩ := List.mem_map.mp h
  have := h2.mem_iff.mp (List.mem_append_left kept hm)
  unfold candidates at this
  rw [List.mem_filter] at this
  exact ⟨e, Tbl.get_of_mem _ _ _ hn this.1, this.2⟩

theorem victims_ne {cfg : Cfg K} {s : State K} {k : K} {e : Entry} (h : Tbl.get s.map k = some e) (he : cfg.evictable k = true) :
    victims cfg s ≠ [] := by
  obtain ⟨out, kept, h1, h2, h3, _⟩ := victims_split cfg s
  intro hv
  rw [h1] at hv
  have hl : out.length = 0 := by
    have := congrArg List.length hv
    simpa using this
  have : (k, e) ∈ candidates cfg s := List.mem_filter.mpr ⟨Tbl.mem_of_get _ _ _ h, he⟩
  have := List.length_pos_of_mem this
  omega

/-! ## A call that is alone -/

theorem run_append {cfg : Cfg K} : ∀ (as bs : List (Act K)) (s s1 : State K), run cfg s as = some s1 →
    run cfg s (as ++ bs) = run cfg s1 bs
  | [], bs, s, s1, h => by cases h; rfl
  | a :: as, bs, s, s1, h => by
    simp only [run, List.cons_append] at h ⊢
    cases hx : step cfg s a with
    | none => rw [hx] at h; cases h
    | some s2 =>
      rw [hx] at h
      exact run_append as bs s2 s1 h

theorem run_two {cfg : Cfg K} {n m : Nat} {a : Act K} {s s1 s2 : State K} (h1 : run cfg s (List.replicate n a) = some s1)
    (h2 : run cfg s1 (List.replicate m a) = some s2) : run cfg s (List.replicate (n + m) a) = some s2 := by
  rw [← List.replicate_append_replicate, run_append _ _ _ _ h1, h2]

theorem run_one {cfg : Cfg K} {a : Act K} {s s1 : State K} (h : step cfg s a = some s1) : run cfg s (List.replicate 1 a) = some s1 := by
  simp [run, h]

theorem allFree_iff (s : State K) : allFree s = true ↔ ∀ t, t ∈ s.tasks → holdsAny t = false := by
  simp [allFree, List.any_eq_false]

theorem allFree_setPc {s : State K} {i : Nat} {pc : Pc K} (h : allFree s = true) (hp : ∀ key, holdsAny (⟨key, pc⟩ : Task K) = false) :
    allFree (s.setPc i pc) = true := by
  rw [allFree_iff] at h ⊢
  intro t ht
  obtain ⟨j, hj⟩ := List.getElem?_of_mem ht
  simp only [State.setPc] at hj
  rw [get_modify_iff] at hj
  obtain ⟨a, ha, hb⟩ := hj
  split at hb
  · subst hb
    exact hp _
  · subst hb
    exact h _ (List.mem_of_getElem? ha)

theorem allFree_removeKeys {s : State K} (h : allFree s = true) (ks : List K) : allFree (ks.foldl State.removeKey s) = true := by
  unfold allFree
  rw [removeKeys_tasks]
  exact h

theorem setPc_setPc (s : State K) (i : Nat) (p q : Pc K) : (s.setPc i p).setPc i q = s.setPc i q := by
  unfold State.setPc
  simp only
  congr 1
  apply List.ext_getElem?
  intro j
  rw [List.getElem?_modify, List.getElem?_modify, List.getElem?_modify]
  cases s.tasks[j]? with
  | none => rfl
  | some t =>
    simp only [Option.map_eq_map, Option.map_some, Option.some.injEq]
    split <;> rfl

theorem removeKey_setPc (s : State K) (i : Nat) (p : Pc K) (k : K) : (s.setPc i p).removeKey k = (s.removeKey k).setPc i p := by
  unfold State.removeKey
  rw [setPc_map]
  split <;> rfl

theorem setPc_same {s : State K} {i : Nat} {key : K} {p : Pc K} (h : s.tasks[i]? = some ⟨key, p⟩) : s.setPc i p = s := by
  unfold State.setPc
  have : s.tasks.modify i (fun t => { t with pc := p }) = s.tasks := by
    apply List.ext_getElem?
    intro j
    rw [List.getElem?_modify]
    by_cases hij : i = j
    · subst hij
      rw [h]
      simp
    · cases s.tasks[j]? <;> simp [hij]
  rw [this]

theorem run_evict {cfg : Cfg K} {i : Nat} {ok : Bool} {hint : Option K} : ∀ (ks : List K) {s : State K} {key : K}, allFree s = true →
    s.tasks[i]? = some ⟨key, .evict ks⟩ →
    run cfg s (List.replicate (ks.length + 1) (.task i ok hint)) = some ((ks.foldl State.removeKey s).setPc i (.acquire 2))
  | [], s, key, hf, ht => by
    have : step cfg s (.task i ok hint) = some (s.setPc i (.acquire 2)) := by
      simp only [step, taskStep]
      rw [ht]
    exact run_one this
  | k :: ks, s, key, hf, ht => by
    have h1 : step cfg s (.task i ok hint) = some ((s.removeKey k).setPc i (.evict ks)) := by
      simp only [step, taskStep]
      rw [ht]
      simp only
      rw [if_neg]
      rw [allFree_free hf]
      simp
    have hf' : allFree ((s.removeKey k).setPc i (.evict ks)) = true :=
      allFree_setPc (allFree_removeKeys hf [k]) (fun _ => rfl)
    have ht' : ((s.removeKey k).setPc i (.evict ks)).tasks[i]? = some ⟨key, .evict ks⟩ :=
      setPc_get (t := ⟨key, .evict (k :: ks)⟩) (by rw [removeKey_tasks]; exact ht) _
    have h2 := run_evict (cfg := cfg) (ok := ok) (hint := hint) ks hf' ht'
    have h3 : (ks.foldl State.removeKey ((s.removeKey k).setPc i (.evict ks))).setPc i (.acquire 2) =
        ((k :: ks).foldl State.removeKey s).setPc i (.acquire 2) := by
      rw [List.foldl_cons]
      have : ∀ (ks : List K) (s : State K) (p : Pc K), ks.foldl State.removeKey (s.setPc i p) = (ks.foldl State.removeKey s).setPc i p := by
        intro ks
        induction ks with
        | nil => intros; rfl
        | cons k ks ih =>
          intro s p
          rw [List.foldl_cons, removeKey_setPc, ih, List.foldl_cons]
      rw [this, setPc_setPc]
    rw [h3] at h2
    have := run_two (run_one h1) h2
    rw [List.length_cons, Nat.add_comm (ks.length + 1) 1]
    exact this

/-- A call that needs a slot and is left alone gets one exactly if one is free, or some entry is idle or may be evicted. -/
theorem run_reserve {cfg : Cfg K} {s : State K} {i : Nat} {key : K} (ok : Bool) (hint : Option K) (hr : Reach cfg s) (hf : allFree s = true)
    (ht : s.tasks[i]? = some ⟨key, .acquire 0⟩) :
    ∃ n s', run cfg s (List.replicate n (.task i ok hint)) = some s' ∧
      ((s'.tasks[i]? = some ⟨key, .connecting⟩ ∧
          (0 < s.avail ∨ ∃ k e, Tbl.get s.map k = some e ∧ (Idle cfg s e ∨ cfg.evictable k = true))) ∨
        (s'.tasks[i]? = some ⟨key, .done none⟩ ∧
          ¬ (0 < s.avail ∨ ∃ k e, Tbl.get s.map k = some e ∧ (Idle cfg s e ∨ cfg.evictable k = true)))) := by
  have hn := (reach_counted hr).nodup
  by_cases h0 : 0 < s.avail
  · refine ⟨1, _, run_one (s1 := ({ s with avail := s.avail - 1 } : State K).setPc i .connecting) ?_, ?_⟩
    · simp only [step, taskStep]
      rw [ht]
      simp only
      rw [if_pos h0]
    · exact Or.inl ⟨setPc_get (s := { s with avail := s.avail - 1 }) ht _, Or.inl h0⟩
  · have s1 : step cfg s (.task i ok hint) = some (s.setPc i .clean) := by
      simp only [step, taskStep]
      rw [ht]
      simp only
      rw [if_neg h0]
    have f1 : allFree (s.setPc i .clean) = true := allFree_setPc hf (fun _ => rfl)
    have t1 := setPc_get ht .clean
    have hc1 : cleanup cfg (s.setPc i .clean) = (cleanup cfg s).setPc i .clean := by
      have : ∀ (ks : List K) (s : State K) (p : Pc K), ks.foldl State.removeKey (s.setPc i p) = (ks.foldl State.removeKey s).setPc i p := by
        intro ks
        induction ks with
        | nil => intros; rfl
        | cons k ks ih =>
          intro s p
          rw [List.foldl_cons, removeKey_setPc, ih, List.foldl_cons]
      unfold cleanup
      exact this _ _ _
    have htc : (cleanup cfg s).tasks[i]? = some ⟨key, .acquire 0⟩ := by
      unfold cleanup
      rw [removeKeys_tasks]
      exact ht
    have s2 : step cfg (s.setPc i .clean) (.task i ok hint) = some ((cleanup cfg s).setPc i (.acquire 1)) := by
      simp only [step, taskStep]
      rw [t1]
      simp only
      rw [f1, hc1, setPc_setPc]
      rfl
    have r2 := run_two (run_one s1) (run_one s2)
    have f2 : allFree ((cleanup cfg s).setPc i (.acquire 1)) = true := allFree_setPc (allFree_removeKeys hf _) (fun _ => rfl)
    have t2 := setPc_get htc (.acquire 1)
    by_cases hidle : ∃ k e, Tbl.get s.map k = some e ∧ Idle cfg s e
    · obtain ⟨k, e, hk, hi⟩ := hidle
      have hav : 0 < (cleanup cfg s).avail := by
        have := removeKeys_avail_pos _ s k ((mem_idle (cfg := cfg) hn k).mpr ⟨e, hk, hi⟩) (by rw [hk]; rfl)
        unfold cleanup
        omega
      have s3 : step cfg ((cleanup cfg s).setPc i (.acquire 1)) (.task i ok hint) =
          some (({ (cleanup cfg s).setPc i (.acquire 1) with avail := (cleanup cfg s).avail - 1 } : State K).setPc i .connecting) := by
        simp only [step, taskStep]
        rw [t2]
        simp only [setPc_avail]
        rw [if_pos hav]
      refine ⟨_, _, run_two r2 (run_one s3), ?_⟩
      exact Or.inl ⟨setPc_get (s := { (cleanup cfg s).setPc i (.acquire 1) with avail := (cleanup cfg s).avail - 1 }) t2 _,
        Or.inr ⟨k, e, hk, Or.inl hi⟩⟩
    · have hclean : cleanup cfg s = s := by
        unfold cleanup
        apply removeKeys_none
        intro k hk
        obtain ⟨e, h1, h2⟩ := (mem_idle (cfg := cfg) hn k).mp hk
        exact absurd ⟨k, e, h1, h2⟩ hidle
      rw [hclean] at r2 f2 t2
      have s3 : step cfg (s.setPc i (.acquire 1)) (.task i ok hint) = some (s.setPc i .snapshot) := by
        simp only [step, taskStep]
        rw [t2]
        simp only [setPc_avail]
        rw [if_neg h0, setPc_setPc]
      have r3 := run_two r2 (run_one s3)
      have f3 : allFree (s.setPc i .snapshot) = true := allFree_setPc hf (fun _ => rfl)
      have t3 := setPc_get ht .snapshot
      have s4 : step cfg (s.setPc i .snapshot) (.task i ok hint) = some (s.setPc i (.evict (victims cfg s))) := by
        simp only [step, taskStep]
        rw [t3]
        simp only
        rw [f3, setPc_setPc]
        rfl
      have r4 := run_two r3 (run_one s4)
      have f4 : allFree (s.setPc i (.evict (victims cfg s))) = true := allFree_setPc hf (fun _ => rfl)
      have t4 := setPc_get ht (.evict (victims cfg s))
      have r5 := run_two r4 (run_evict (victims cfg s) f4 t4)
      have h5 : ((victims cfg s).foldl State.removeKey (s.setPc i (.evict (victims cfg s)))).setPc i (.acquire 2) =
          ((victims cfg s).foldl State.removeKey s).setPc i (.acquire 2) := by
        have : ∀ (ks : List K) (s : State K) (p : Pc K), ks.foldl State.removeKey (s.setPc i p) = (ks.foldl State.removeKey s).setPc i p := by
          intro ks
          induction ks with
          | nil => intros; rfl
          | cons k ks ih =>
            intro s p
            rw [List.foldl_cons, removeKey_setPc, ih, List.foldl_cons]
        rw [this, setPc_setPc]
      rw [h5] at r5
      have htv : ((victims cfg s).foldl State.removeKey s).tasks[i]? = some ⟨key, .acquire 0⟩ := by
        rw [removeKeys_tasks]
        exact ht
      have t5 := setPc_get htv (.acquire 2)
      by_cases hev : ∃ k e, Tbl.get s.map k = some e ∧ cfg.evictable k = true
      · obtain ⟨k, e, hk, he⟩ := hev
        have hne := victims_ne hk he
        obtain ⟨v, hv⟩ := List.exists_mem_of_ne_nil _ hne
        obtain ⟨e', hve, _⟩ := mem_victims hn hv
        have hav : 0 < ((victims cfg s).foldl State.removeKey s).avail := by
          have := removeKeys_avail_pos (victims cfg s) s v hv (by rw [hve]; rfl)
          omega
        have s6 : step cfg (((victims cfg s).foldl State.removeKey s).setPc i (.acquire 2)) (.task i ok hint) =
            some (({ ((victims cfg s).foldl State.removeKey s).setPc i (.acquire 2) with
              avail := ((victims cfg s).foldl State.removeKey s).avail - 1 } : State K).setPc i .connecting) := by
          simp only [step, taskStep]
          rw [t5]
          simp only [setPc_avail]
          rw [if_pos hav]
        refine ⟨_, _, run_two r5 (run_one s6), ?_⟩
        exact Or.inl ⟨setPc_get (s := { ((victims cfg s).foldl State.removeKey s).setPc i (.acquire 2) with
              avail := ((victims cfg s).foldl State.removeKey s).avail - 1 }) t5 _, Or.inr ⟨k, e, hk, Or.inr he⟩⟩
      · have hv : victims cfg s = [] := by
          cases hv : victims cfg s with
          | nil => rfl
          | cons v vs =>
            obtain ⟨e, h1, h2⟩ := mem_victims (cfg := cfg) (k := v) hn (by rw [hv]; exact List.mem_cons_self)
            exact absurd ⟨v, e, h1, h2⟩ hev
        rw [hv] at r5 t5
        have s6 : step cfg (s.setPc i (.acquire 2)) (.task i ok hint) = some (s.setPc i (.done none)) := by
          simp only [step, taskStep]
          simp only [List.foldl_nil] at t5
          rw [t5]
          simp only [setPc_avail]
          rw [if_neg h0, setPc_setPc]
        refine ⟨_, _, run_two r5 (run_one s6), ?_⟩
        refine Or.inr ⟨setPc_get ht _, ?_⟩
        rintro (h | ⟨k, e, hk, h | h⟩)
        · exact h0 h
        · exact hidle ⟨k, e, hk, h⟩
        · exact hev ⟨k, e, hk, h⟩

/-! ## Writing -/

theorem run_writes {cfg : Cfg K} (c : Nat) : ∀ (q : List Nat) {s : State K} {x : Conn K}, s.conns[c]? = some x → x.writer = .running →
    x.queue = q → ∃ s', run cfg s (List.replicate q.length (.write c)) = some s' ∧
      s'.conns[c]? = some { x with queue := [], wire := x.wire ++ q }
  | [], s, x, hx, hr, hq => ⟨s, rfl, by
      rw [hx]
      obtain ⟨key, queue, wire, taken, writer, ab, su⟩ := x
      simp only at hq
      subst hq
      simp⟩
  | m :: q, s, x, hx, hr, hq => by
    have h1 : step cfg s (.write c) = some (s.setConn c (fun x => { x with queue := q, wire := x.wire ++ [m] })) := by
      simp only [step]
      rw [hx]
      simp only [hr, hq]
    have h2 : (s.setConn c (fun x => { x with queue := q, wire := x.wire ++ [m] })).conns[c]? =
        some { x with queue := q, wire := x.wire ++ [m] } := by
      unfold State.setConn
      simp only
      rw [get_modify _ _ _ _ _ hx]
      simp
    obtain ⟨s', h3, h4⟩ := run_writes (cfg := cfg) c q h2 hr rfl
    refine ⟨s', ?_, ?_⟩
    · have := run_two (run_one h1) h3
      rw [List.length_cons, Nat.add_comm]
      exact this
    · rw [h4]
      simp

end Siphon.Pool
