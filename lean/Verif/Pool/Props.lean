import Verif.Pool.Room
set_option linter.unusedSimpArgs false
set_option linter.unusedSectionVars false
/-!
# Properties of connection pools
-/
namespace Siphon.Pool
variable {K : Type} [DecidableEq K]

/-! ## Examples of runs -/

/-- A call to a peer that has no connection yet opens one and sends. -/
def opened (k : K) (i : Nat) : List (Act K) :=
  [.call k, .task i true none, .task i true none, .task i true none, .task i true none, .task i true none, .task i true none]

/-- A call to a peer that has a connection. -/
def reused (k : K) (i : Nat) : List (Act K) := [.call k, .task i true none]

def oneShard : Peer → Nat := fun _ => 0
def smallPool : Cfg Peer := tcpWs 2 300 oneShard

/-! ## C99: slots -/

/-- **C99.** At every time, whatever the calls, failures and cleanups before: the entries of the pool have different keys, and
entries, calls that are opening a connection and free slots add up to the size of the pool. So there are never more entries than
that, and no slot is ever lost. -/
theorem C99_cap (cfg : Cfg K) (s : State K) (h : Reach cfg s) :
    (s.map.map (·.1)).Nodup ∧ s.map.length + s.tasks.countP opens + s.avail = cfg.max := by
  have hc := reach_counted h
  refine ⟨hc.nodup, ?_⟩
  have h1 := hc.permits
  have h2 : s.tasks.countP opening = s.tasks.countP opens := by
    congr 1
  unfold slots at h1
  omega

/-- **C99.** Sockets: a connection that was not told to stop is the entry of its own key, or a call has just opened it and is
about to put it into the pool, and not both. There are at most as many of them as the pool is large. -/
theorem C99_sockets (cfg : Cfg K) (s : State K) (h : Reach cfg s) :
    s.conns.countP (fun x => !x.aborted) ≤ cfg.max ∧
    ∀ (c : Nat) (x : Conn K), s.conns[c]? = some x →
      (x.aborted = false ↔
        (∃ e, Tbl.get s.map x.key = some e ∧ e.conn = c) ∨ ∃ i : Nat, s.tasks[i]? = some ⟨x.key, .connected c⟩) := by
  have ho := reach_owned h
  have hd := reach_deliver h
  have hn := (reach_counted h).nodup
  refine ⟨?_, ?_⟩
  · have h1 := live_count ho hd
    have h2 := (C99_cap cfg s h).2
    have h3 : s.tasks.countP held ≤ s.tasks.countP opens := by
      apply List.countP_mono_left
      rintro ⟨key, pc⟩ _ ht
      cases pc <;> first | rfl | (cases ht)
    omega
  · intro c x hx
    have hc := ho c
    have hl : live s.conns c = !x.aborted := by
      unfold live
      rw [hx]
    rw [hl] at hc
    constructor
    · intro ha
      rw [ha] at hc
      have hsum : 0 < mapOwn s.map c ∨ 0 < pcOwn s.tasks c := by simp at hc; omega
      rcases hsum with hm | hm
      · left
        unfold mapOwn at hm
        rw [List.countP_pos_iff] at hm
        obtain ⟨⟨k, e⟩, hmem, hce⟩ := hm
        simp only [beq_iff_eq] at hce
        have hg := Tbl.get_of_mem _ _ _ hn hmem
        obtain ⟨y, hy, hyk⟩ := hd.entry k e hg
        rw [hce, hx] at hy
        cases hy
        rw [hyk]
        exact ⟨e, hg, hce⟩
      · right
        unfold pcOwn at hm
        rw [List.countP_pos_iff] at hm
        obtain ⟨⟨key, pc⟩, htm, hct⟩ := hm
        obtain ⟨j, hj⟩ := List.getElem?_of_mem htm
        cases pc with
        | connected c' =>
          simp only [isConn, beq_iff_eq] at hct
          subst hct
          obtain ⟨y, hy, hyk⟩ := hd.pcs j _ hj
          rw [hx] at hy
          cases hy
          simp only at hyk
          rw [hyk]
          exact ⟨j, hj⟩
        | _ => cases hct
    · intro h'
      cases ha : x.aborted with
      | false => rfl
      | true =>
        rw [ha] at hc
        simp only [Bool.not_true, Bool.toNat_false] at hc
        rcases h' with ⟨e, h1, h2⟩ | ⟨i, hi⟩
        · have := mapOwn_pos s.map x.key e h1
          rw [h2] at this
          omega
        · have : 0 < pcOwn s.tasks c := by
            unfold pcOwn
            rw [List.countP_pos_iff]
            exact ⟨_, List.mem_of_getElem? hi, by simp [isConn]⟩
          omega

/-- Two peers, and a third that makes the first go: a socket that was told to stop, and two that were not. -/
example : ∃ s, run smallPool (init smallPool)
      (opened (.tcp 1) 0 ++ [.tick 1] ++ opened (.tcp 2) 1 ++ [.call (.tcp 3)] ++ List.replicate 10 (.task 2 true none)) = some s ∧
    s.map.map (·.1) = [.tcp 2] ∧ s.conns.map (·.aborted) = [true, false, false] ∧ s.avail = 0 ∧ s.tasks.countP opens = 1 := by
  refine ⟨_, rfl, ?_⟩
  decide +kernel

/-- **C99.** A cleanup drops exactly the connections that were idle for longer than allowed, and changes no other. -/
theorem C99_idle (cfg : Cfg K) (s s' : State K) (h : Reach cfg s) (hs : step cfg s .cleanup = some s') (k : K) :
    (∀ e, Tbl.get s.map k = some e → ((Idle cfg s e → Tbl.get s'.map k = none) ∧ (¬ Idle cfg s e → Tbl.get s'.map k = some e))) ∧
    (Tbl.get s.map k = none → Tbl.get s'.map k = none) := by
  have hn := (reach_counted h).nodup
  simp only [step] at hs
  split at hs
  · cases hs
  · cases hs
    constructor
    · intro e he
      rcases stays_removeKeys ((s.map.filter (fun p => isIdle cfg s p.2)).map (·.1)) s k e he with ⟨h1, h2⟩ | ⟨h1, h2⟩
      · refine ⟨fun hi => absurd ((mem_idle hn k).mpr ⟨e, he, hi⟩) h2, fun _ => h1⟩
      · refine ⟨fun _ => h1, fun hi => ?_⟩
        obtain ⟨e', h3, h4⟩ := (mem_idle hn k).mp h2
        rw [he] at h3
        cases h3
        exact absurd h4 hi
    · intro hno
      cases hg : Tbl.get (cleanup cfg s).map k with
      | none => rfl
      | some e =>
        have := removeKeys_get _ s k e hg
        rw [hno] at this
        cases this

example : ∃ s s', run smallPool (init smallPool) (opened (.tcp 1) 0 ++ [.tick 200] ++ opened (.ws 2) 1 ++ [.tick 101]) = some s ∧
    step smallPool s .cleanup = some s' ∧ s.map.map (·.1) = [.ws 2, .tcp 1] ∧ s'.map.map (·.1) = [.ws 2] := by
  refine ⟨_, _, rfl, rfl, ?_⟩
  decide +kernel

/-- **C99.** What a call evicts when the pool is full: a tenth of the size, or one, or all there are; none but those that may be
evicted; and none that was used later than one that stays. -/
theorem C99_lru (cfg : Cfg K) (s s' : State K) (i : Nat) (key : K) (ok : Bool) (hint : Option K) (h : Reach cfg s)
    (ht : s.tasks[i]? = some ⟨key, .snapshot⟩) (hs : step cfg s (.task i ok hint) = some s') :
    ∃ ks, s'.tasks[i]? = some ⟨key, .evict ks⟩ ∧ ks.Nodup ∧
      ks.length = min (max (cfg.max / 10) 1) (s.map.countP (fun p => cfg.evictable p.1)) ∧
      (∀ k, k ∈ ks → cfg.evictable k = true ∧ ∃ e, Tbl.get s.map k = some e) ∧
      ∀ k e k' e', k ∈ ks → Tbl.get s.map k = some e → k' ∉ ks → Tbl.get s.map k' = some e' → cfg.evictable k' = true →
        e.lastUsed ≤ e'.lastUsed := by
  have hn := (reach_counted h).nodup
  obtain ⟨out, kept, h1, h2, h3, h4⟩ := victims_split cfg s
  have hnd : (Tbl.keys (out ++ kept)).Nodup := by
    have hp : (Tbl.keys (out ++ kept)).Perm (Tbl.keys (candidates cfg s)) := h2.map _
    rw [hp.nodup_iff]
    exact (List.filter_sublist.map _).nodup hn
  refine ⟨victims cfg s, ?_, ?_, ?_, ?_, ?_⟩
  · simp only [step, taskStep] at hs
    rw [ht] at hs
    simp only at hs
    split at hs
    · cases hs
    · cases hs
      exact setPc_get ht _
  · rw [h1]
    unfold Tbl.keys at hnd
    rw [List.map_append, List.nodup_append] at hnd
    exact hnd.1
  · rw [h1, List.length_map, h3, List.countP_eq_length_filter]
    rfl
  · intro k hk
    obtain ⟨e, h5, h6⟩ := mem_victims hn hk
    exact ⟨h6, e, h5⟩
  · intro k e k' e' hk he hk' he' hev
    rw [h1] at hk hk'
    obtain ⟨⟨k0, e0⟩, hm, rfl⟩ := List.mem_map.mp hk
    have hm0 := List.mem_filter.mp (h2.mem_iff.mp (List.mem_append_left kept hm))
    have := Tbl.get_of_mem _ _ _ hn hm0.1
    rw [he] at this
    cases this
    have hq : (k', e') ∈ out ++ kept := h2.mem_iff.mpr (List.mem_filter.mpr ⟨Tbl.mem_of_get _ _ _ he', hev⟩)
    rcases List.mem_append.mp hq with hq | hq
    · exact absurd (List.mem_map.mpr ⟨_, hq, rfl⟩) hk'
    · exact h4 _ _ hm hq

/-- The first peer was used last, so the second goes. -/
example : ∃ s s', run smallPool (init smallPool)
      (opened (.tcp 1) 0 ++ [.tick 1] ++ opened (.tcp 2) 1 ++ [.tick 1] ++ reused (.tcp 1) 2 ++ [.call (.tcp 3)] ++
        List.replicate 5 (.task 3 true none)) = some s ∧
    s.tasks[3]? = some ⟨.tcp 3, .snapshot⟩ ∧ step smallPool s (.task 3 true none) = some s' ∧
    s'.tasks[3]? = some ⟨.tcp 3, .evict [.tcp 2]⟩ := by
  refine ⟨_, _, rfl, ?_, rfl, ?_⟩
  · decide +kernel
  · decide +kernel

/-- **C99.** A call that needs a slot and is left alone gets one exactly if a slot is free, or an entry is idle, or an entry may
be evicted. Otherwise it returns an error. -/
theorem C99_room (cfg : Cfg K) (s : State K) (i : Nat) (key : K) (ok : Bool) (hint : Option K) (h : Reach cfg s)
    (hf : ∀ (j : Nat) (key k : K) (c : Nat) (f : Bool), s.tasks[j]? ≠ some ⟨key, .waiting k c f⟩)
    (ht : s.tasks[i]? = some ⟨key, .acquire 0⟩) :
    ∃ n s', run cfg s (List.replicate n (.task i ok hint)) = some s' ∧
      ((s'.tasks[i]? = some ⟨key, .connecting⟩ ∧
          (0 < s.avail ∨ ∃ k e, Tbl.get s.map k = some e ∧ (Idle cfg s e ∨ cfg.evictable k = true))) ∨
        (s'.tasks[i]? = some ⟨key, .done none⟩ ∧
          ¬ (0 < s.avail ∨ ∃ k e, Tbl.get s.map k = some e ∧ (Idle cfg s e ∨ cfg.evictable k = true)))) := by
  refine run_reserve ok hint h ?_ ht
  rw [allFree_iff]
  intro t htm
  obtain ⟨j, hj⟩ := List.getElem?_of_mem htm
  obtain ⟨key, pc⟩ := t
  cases pc with
  | waiting k c f => exact absurd hj (hf j key k c f)
  | _ => rfl

/-- **C99**, refused. A pool full of WebSockets that are not idle refuses every TCP peer: they are not evicted, however long
ago each was used. -/
theorem C99_refused (max idle : Nat) (shard : Peer → Nat) (s : State Peer) (i : Nat) (key : Peer) (ok : Bool) (hint : Option Peer)
    (h : Reach (tcpWs max idle shard) s)
    (hf : ∀ (j : Nat) (key k : Peer) (c : Nat) (f : Bool), s.tasks[j]? ≠ some ⟨key, .waiting k c f⟩)
    (ht : s.tasks[i]? = some ⟨key, .acquire 0⟩) (hfull : s.avail = 0)
    (hws : ∀ k e, Tbl.get s.map k = some e → (∃ url, k = .ws url) ∧ s.now ≤ e.lastUsed + idle) :
    ∃ n s', run (tcpWs max idle shard) s (List.replicate n (.task i ok hint)) = some s' ∧ s'.tasks[i]? = some ⟨key, .done none⟩ := by
  obtain ⟨n, s', h1, ⟨_, h2⟩ | ⟨h2, _⟩⟩ := C99_room (tcpWs max idle shard) s i key ok hint h hf ht
  · exfalso
    rcases h2 with h2 | ⟨k, e, hk, h2⟩
    · omega
    · obtain ⟨⟨url, rfl⟩, h3⟩ := hws k e hk
      rcases h2 with h2 | h2
      · unfold Idle at h2
        simp only [tcpWs] at h2
        omega
      · cases h2
  · exact ⟨n, s', h1, h2⟩

example : ∃ s, run smallPool (init smallPool) (opened (.ws 1) 0 ++ opened (.ws 2) 1 ++ [.tick 300, .call (.tcp 3), .task 2 true none, .task 2 true none]) =
      some s ∧ s.tasks[2]? = some ⟨.tcp 3, .acquire 0⟩ ∧ s.avail = 0 ∧
    s.map = [(.ws 2, ⟨1, 0⟩), (.ws 1, ⟨0, 0⟩)] := by
  refine ⟨_, rfl, ?_⟩
  decide +kernel

/-! ## C100: what becomes of a message -/

/-- **C100.** The channel of a connection holds each message at most once, exactly those whose `send` has returned `Ok`, and what
is on the wire is the beginning of it. While the writer runs, nothing of it is missing. -/
theorem C100_channel (cfg : Cfg K) (s : State K) (h : Reach cfg s) (c : Nat) (x : Conn K) (hx : s.conns[c]? = some x) :
    x.taken.Nodup ∧ (∀ i, i ∈ x.taken ↔ Sent s i c) ∧ x.wire <+: x.taken ∧ (x.writer = .running → x.taken = x.wire ++ x.queue) := by
  have := (reach_deliver h).conn c x hx
  exact ⟨this.nodup, this.taken, this.wire, this.running⟩

/-- **C100.** A message goes to the peer it is meant for: over a connection opened for the call's own key, or, in a `TlsPool`, for
another name at the same address. -/
theorem C100_peer (cfg : Cfg K) (s : State K) (h : Reach cfg s) (i c : Nat) (key : K)
    (hi : s.tasks[i]? = some ⟨key, .done (some c)⟩) :
    ∃ x, s.conns[c]? = some x ∧ (x.key = key ∨ cfg.alike key x.key = true) := by
  obtain ⟨k, h1, x, h2, h3⟩ := (reach_deliver h).pcs i _ hi
  refine ⟨x, h2, ?_⟩
  rw [h3]
  exact h1

theorem C100_peer_tcp (max idle : Nat) (shard : Peer → Nat) (s : State Peer) (h : Reach (tcpWs max idle shard) s) (i c : Nat)
    (key : Peer) (hi : s.tasks[i]? = some ⟨key, .done (some c)⟩) : ∃ x, s.conns[c]? = some x ∧ x.key = key := by
  obtain ⟨x, h1, h2 | h2⟩ := C100_peer _ s h i c key hi
  · exact ⟨x, h1, h2⟩
  · cases h2

theorem C100_peer_tls (max idle : Nat) (shard : Nat × Nat → Nat) (s : State (Nat × Nat)) (h : Reach (tls max idle shard) s)
    (i c : Nat) (key : Nat × Nat) (hi : s.tasks[i]? = some ⟨key, .done (some c)⟩) :
    ∃ x, s.conns[c]? = some x ∧ x.key.1 = key.1 := by
  obtain ⟨x, h1, h2 | h2⟩ := C100_peer _ s h i c key hi
  · exact ⟨x, h1, by rw [h2]⟩
  · simp only [tls, beq_iff_eq] at h2
    exact ⟨x, h1, h2.symm⟩

/-- A message for one name goes over a connection that was opened, and whose certificate was checked, for another. -/
theorem C100_other_name : ∃ as s, run (tls 10 300 (fun _ => 0)) (init (tls 10 300 (fun _ => 0))) as = some s ∧
    s.tasks[1]? = some ⟨(1, 7), .done (some 0)⟩ ∧ (s.conns[0]?).map (·.key) = some (1, 5) ∧ (s.conns[0]?).map (·.taken) = some [0, 1] := by
  refine ⟨opened (1, 5) 0 ++ [.call (1, 7), .task 1 true none, .task 1 true (some (1, 5)), .task 1 true none], _, rfl, ?_⟩
  decide +kernel

/-- **C100.** Reuse: a call that finds an entry for its peer sends over that connection if its writer runs and the channel has
room; no connection is opened, and the time of the last use is now. -/
theorem C100_reuse (cfg : Cfg K) (s s' : State K) (i : Nat) (ok : Bool) (hint : Option K) (key k : K) (first : Bool) (e : Entry)
    (x : Conn K) (hi : s.tasks[i]? = some ⟨key, .look k first⟩) (he : Tbl.get s.map k = some e) (hx : s.conns[e.conn]? = some x)
    (hr : x.writer = .running) (hq : x.queue.length < 64) (hs : step cfg s (.task i ok hint) = some s') :
    Sent s' i e.conn ∧ s'.conns.length = s.conns.length ∧ Tbl.get s'.map k = some ⟨e.conn, s.now⟩ ∧
    ∀ k', k' ≠ k → Tbl.get s'.map k' = Tbl.get s.map k' := by
  simp only [step, taskStep, hi] at hs
  split at hs
  · cases hs
  · rw [he] at hs
    simp only [Option.some.injEq] at hs
    subst hs
    have ho : ∀ a b : State K, (s.touch k).offer i e.conn a b = (s.touch k).push e.conn i := by
      intro a b
      unfold State.offer
      rw [show (s.touch k).conns = s.conns from rfl, hx]
      simp only [hr]
      rw [if_pos (show x.queue.length < CHANNEL from hq)]
    rw [ho]
    refine ⟨⟨key, ?_⟩, ?_, ?_, ?_⟩
    · simp only [State.push, State.setPc, State.setConn, State.touch, List.getElem?_modify, hi]
      simp
    · simp [State.push, State.setPc, State.setConn, State.touch]
    · simp only [State.push, State.setPc, State.setConn, State.touch]
      rw [Tbl.get_update_self, he]
      rfl
    · intro k' hk
      simp only [State.push, State.setPc, State.setConn, State.touch]
      rw [Tbl.get_update_ne _ _ hk]

/-- **C99.** Use is recorded: a call that finds an entry makes its time of last use now, even if it then has to wait or finds the
channel closed. -/
theorem C99_used (cfg : Cfg K) (s s' : State K) (i : Nat) (ok : Bool) (hint : Option K) (key k : K) (first : Bool) (e : Entry)
    (hi : s.tasks[i]? = some ⟨key, .look k first⟩) (he : Tbl.get s.map k = some e) (hs : step cfg s (.task i ok hint) = some s') :
    Tbl.get s'.map k = some ⟨e.conn, s.now⟩ := by
  simp only [step, taskStep, hi] at hs
  split at hs
  · cases hs
  · rw [he] at hs
    simp only [Option.some.injEq] at hs
    subst hs
    have : ∀ t : State K, t.map = (s.touch k).map → Tbl.get t.map k = some ⟨e.conn, s.now⟩ := by
      intro t ht
      rw [ht]
      simp only [State.touch]
      rw [Tbl.get_update_self, he]
      rfl
    apply this
    unfold State.offer
    split
    · rfl
    · split
      · split <;> rfl
      · rfl

/-- **C100.** A call opens a connection only if at the time it looked the pool had none it could have used: a `TlsPool` has no
entry for the address under any name. -/
theorem C100_search (cfg : Cfg K) (s s' : State K) (i : Nat) (ok : Bool) (hint : Option K) (key : K) (n : Nat)
    (hi : s.tasks[i]? = some ⟨key, .search⟩) (hs : step cfg s (.task i ok hint) = some s')
    (hn : s'.tasks[i]? = some ⟨key, .acquire n⟩) : ∀ p ∈ s.map, cfg.alike key p.1 = false := by
  simp only [step, taskStep, hi] at hs
  split at hs
  · split at hs
    · cases hs
      simp only [State.setPc, List.getElem?_modify, hi] at hn
      simp at hn
    · cases hs
  · split at hs
    · cases hs
    · rename_i h
      intro p hp
      simp only [Bool.or_eq_true, List.any_eq_true, not_or, not_exists, not_and, Bool.not_eq_true] at h
      exact h.1 p hp

example : ∃ s, run smallPool (init smallPool) (opened (.tcp 1) 0 ++ [.tick 5, .call (.tcp 1)]) = some s ∧
    s.tasks[1]? = some ⟨.tcp 1, .look (.tcp 1) true⟩ ∧ Tbl.get s.map (.tcp 1) = some ⟨0, 0⟩ ∧ s.conns.map (·.queue) = [[0]] := by
  refine ⟨_, rfl, ?_⟩
  decide +kernel

/-- **C100.** Order: when a `send` has returned `Ok` before another message is accepted by the same connection, it stands before
it in the channel for ever, and so on the wire. -/
theorem C100_order (cfg : Cfg K) : ∀ (as : List (Act K)) (s s' : State K), Reach cfg s → run cfg s as = some s' →
    ∀ (i j c : Nat), Sent s i c → ¬ Sent s j c → Sent s' j c → ∃ x, s'.conns[c]? = some x ∧ List.Sublist [i, j] x.taken := by
  have key : ∀ (as : List (Act K)) (s s' : State K), Reach cfg s → run cfg s as = some s' →
      ∀ (c : Nat) (x : Conn K), s.conns[c]? = some x → ∃ x', s'.conns[c]? = some x' ∧ x.taken <+: x'.taken := by
    intro as
    induction as with
    | nil =>
      intro s s' _ hr c x hx
      cases hr
      exact ⟨x, hx, List.prefix_rfl⟩
    | cons a as ih =>
      intro s s' hre hr c x hx
      simp only [run] at hr
      cases hst : step cfg s a with
      | none => rw [hst] at hr; cases hr
      | some s1 =>
        rw [hst] at hr
        obtain ⟨x1, hx1, he⟩ := step_effect (reach_counted hre).nodup hx hst
        obtain ⟨x2, hx2, hp⟩ := ih s1 s' (reach_step hre hst) hr c x1 hx1
        exact ⟨x2, hx2, he.taken.trans hp⟩
  intro as s s' hre hr i j c hi hj hj'
  obtain ⟨k, hk⟩ := hi
  obtain ⟨x, hx, _⟩ := C100_peer cfg s hre i c k hk
  have h1 := ((C100_channel cfg s hre c x hx).2.1 i).mpr ⟨k, hk⟩
  have h2 : j ∉ x.taken := fun h => hj (((C100_channel cfg s hre c x hx).2.1 j).mp h)
  obtain ⟨x', hx', hp⟩ := key as s s' hre hr c x hx
  have h3 := ((C100_channel cfg s' (reach_run as hre hr) c x' hx').2.1 j).mpr hj'
  refine ⟨x', hx', ?_⟩
  obtain ⟨r, hr⟩ := hp
  rw [← hr] at h3 ⊢
  have h4 : j ∈ r := by
    rcases List.mem_append.mp h3 with h | h
    · exact absurd h h2
    · exact h
  exact (List.singleton_sublist.mpr h1).append (List.singleton_sublist.mpr h4)

example : ∃ s s', run smallPool (init smallPool) (opened (.tcp 1) 0) = some s ∧ run smallPool s (reused (.tcp 1) 1 ++ [.write 0]) = some s' ∧
    Sent s 0 0 ∧ ¬ Sent s 1 0 ∧ Sent s' 1 0 ∧ (s'.conns[0]?).map (·.taken) = some [0, 1] ∧ (s'.conns[0]?).map (·.wire) = some [0] := by
  refine ⟨_, _, rfl, rfl, ⟨.tcp 1, by decide +kernel⟩, ?_, ⟨.tcp 1, by decide +kernel⟩, by decide +kernel, by decide +kernel⟩
  rintro ⟨k, hk⟩
  have : (none : Option (Task Peer)) = some ⟨k, .done (some 0)⟩ := hk
  cases this

/-- **C100.** While its writer runs, everything a connection has accepted gets to the wire by writing as many messages as are
waiting. -/
theorem C100_drains (cfg : Cfg K) (s : State K) (h : Reach cfg s) (c : Nat) (x : Conn K) (hx : s.conns[c]? = some x)
    (hr : x.writer = .running) :
    ∃ s' x', run cfg s (List.replicate x.queue.length (.write c)) = some s' ∧ s'.conns[c]? = some x' ∧ x'.wire = x.taken := by
  obtain ⟨s', h1, h2⟩ := run_writes (cfg := cfg) c x.queue hx hr rfl
  refine ⟨s', _, h1, h2, ?_⟩
  simp only
  exact ((C100_channel cfg s h c x hx).2.2.2 hr).symm

/-- **C100.** What ends a connection that works: its socket, or the pool, which drops its entry for one of the reasons in
`Cause`. -/
theorem C100_causes (cfg : Cfg K) (s s' : State K) (a : Act K) (h : Reach cfg s) (hs : step cfg s a = some s') (c : Nat) (x : Conn K)
    (hx : s.conns[c]? = some x) (hr : x.writer = .running) (ha : x.aborted = false) :
    ∃ x', s'.conns[c]? = some x' ∧ ((x'.writer = .running ∧ x'.aborted = false) ∨ a = .exit c ∨ Cause cfg s a x.key) := by
  obtain ⟨x', hx', he⟩ := step_effect (reach_counted h).nodup hx hs
  refine ⟨x', hx', ?_⟩
  rcases he.writer with h1 | ⟨_, ⟨h1, _⟩ | ⟨_, h1, _⟩⟩
  · rcases he.aborted with h2 | ⟨k, e, h2, h3, h4, _⟩
    · exact Or.inl ⟨by rw [h1, hr], by rw [h2, ha]⟩
    · obtain ⟨y, hy, hyk⟩ := (reach_deliver h).entry k e h2
      rw [h3, hx] at hy
      cases hy
      rw [hyk]
      exact Or.inr (Or.inr h4)
  · exact Or.inr (Or.inl h1)
  · rw [ha] at h1
    cases h1

/-- **C100**, partial. In a run in which no socket fails, nobody asks for a cleanup, the pool is never full and no peer has two
calls at once: each peer has one connection, all connections work, and each message whose `send` has returned `Ok` is on the wire or
waits for its turn. Missing: the same for calls at the same time (`C100_lost`) and after another connection has ended
(`C100_late`), where it is false. -/
theorem C100_delivers_partial (cfg : Cfg K) (as : List (Act K)) (s : State K) (hc : Calm cfg (init cfg) as)
    (hr : run cfg (init cfg) as = some s) :
    (s.conns.map (·.key)).Nodup ∧
    (∀ (c : Nat) (x : Conn K), s.conns[c]? = some x → x.writer = .running ∧ x.aborted = false) ∧
    ∀ i c, Sent s i c → ∃ x, s.conns[c]? = some x ∧ (i ∈ x.wire ∨ i ∈ x.queue) := by
  have hq := calm_quiet as ⟨[], rfl⟩ (quiet_init cfg) hc hr
  have hre : Reach cfg s := ⟨as, hr⟩
  refine ⟨hq.keys, fun c x hx => ⟨(hq.conns c x hx).1, (hq.conns c x hx).2.1⟩, ?_⟩
  rintro i c ⟨k, hk⟩
  obtain ⟨x, hx, _⟩ := C100_peer cfg s hre i c k hk
  have h1 := ((C100_channel cfg s hre c x hx).2.1 i).mpr ⟨k, hk⟩
  rw [(C100_channel cfg s hre c x hx).2.2.2 (hq.conns c x hx).1] at h1
  exact ⟨x, hx, List.mem_append.mp h1⟩

/-- The whole property: a message that was accepted gets to the wire, unless a socket fails. -/
def Delivers (cfg : Cfg K) : Prop := ∀ as s, run cfg (init cfg) as = some s → (∀ c, Act.exit c ∉ as) →
  ∀ i c, Sent s i c → ∃ x, s.conns[c]? = some x ∧ (i ∈ x.wire ∨ (x.writer = .running ∧ x.aborted = false))

/-- **C100** is false. Two calls at the same time to a peer without a connection: both return `Ok`, no socket has failed, and neither
message is ever written. The second connection replaces the first in the pool, which ends the first one, and the end of the
first removes the second. -/
theorem C100_lost : ∃ as s, run smallPool (init smallPool) as = some s ∧ (∀ c, Act.exit c ∉ as) ∧ Act.cleanup ∉ as ∧
    s.tasks = [⟨.tcp 1, .done (some 0)⟩, ⟨.tcp 1, .done (some 1)⟩] ∧
    s.conns.map (fun x => (x.taken, x.wire, x.writer)) = [([0], [], .cancelled), ([1], [], .cancelled)] ∧ s.map = [] := by
  refine ⟨[.call (.tcp 1), .call (.tcp 1), .task 0 true none, .task 1 true none, .task 0 true none, .task 1 true none,
    .task 0 true none, .task 1 true none, .task 0 true none, .task 1 true none, .task 0 true none, .task 0 true none,
    .task 1 true none, .cancel 0, .task 1 true none, .supervise 0, .cancel 1], _, rfl, ?_, ?_, ?_⟩
  · intro c hc
    simp at hc
  · decide +kernel
  · decide +kernel

theorem C100_not : ¬ Delivers smallPool := by
  intro h
  obtain ⟨as, s, h1, h2, _, h3, h4, _⟩ := C100_lost
  obtain ⟨x, hx, h5⟩ := h as s h1 h2 0 0 ⟨.tcp 1, by rw [h3]; rfl⟩
  have h6 : (s.conns.map (fun x => (x.taken, x.wire, x.writer)))[0]? = some ([0], [], .cancelled) := by rw [h4]; rfl
  rw [List.getElem?_map, hx] at h6
  simp only [Option.map_some, Option.some.injEq, Prod.mk.injEq] at h6
  rcases h5 with h5 | ⟨h5, _⟩
  · rw [h6.2.1] at h5
    cases h5
  · rw [h6.2.2] at h5
    cases h5

/-- Even one call at a time: the connection was idle and is dropped, the next call opens another and returns `Ok`, and then the
supervisor of the old one removes the new one. -/
theorem C100_late : ∃ as s, run smallPool (init smallPool) as = some s ∧ (∀ c, Act.exit c ∉ as) ∧
    s.tasks = [⟨.tcp 1, .done (some 0)⟩, ⟨.tcp 1, .done (some 1)⟩] ∧
    s.conns.map (fun x => (x.taken, x.wire, x.writer)) = [([0], [0], .cancelled), ([1], [], .cancelled)] ∧ s.map = [] := by
  refine ⟨opened (.tcp 1) 0 ++ [.write 0, .tick 301, .cleanup, .cancel 0] ++ opened (.tcp 1) 1 ++ [.supervise 0, .cancel 1], _, rfl, ?_, ?_⟩
  · intro c hc
    simp [opened] at hc
  · decide +kernel

/-- The hypothesis of `C100_delivers_partial` is met: two peers, one call after the other. -/
example : ∃ s, run (tcpWs 3 300 oneShard) (init (tcpWs 3 300 oneShard)) (opened (.tcp 1) 0) = some s ∧
    Calm (tcpWs 3 300 oneShard) (init (tcpWs 3 300 oneShard)) (opened (.tcp 1) 0) ∧ Sent s 0 0 := by
  refine ⟨_, rfl, ?_, ⟨.tcp 1, by decide +kernel⟩⟩
  have one : ∀ (s : State Peer), s.tasks.length ≤ 1 → ∀ (i j : Nat) (t u : Task Peer), s.tasks[i]? = some t → s.tasks[j]? = some u →
      pending t = true → pending u = true → t.key = u.key → i = j := by
    intro s hl i j t u hi hj _ _ _
    have := (List.getElem?_eq_some_iff.mp hi).1
    have := (List.getElem?_eq_some_iff.mp hj).1
    omega
  unfold opened
  refine ⟨by decide +kernel, (by intro c hc; cases hc), (by intro hc; cases hc), one _ (by decide +kernel), ?_⟩
  intro s1 h1; cases h1
  refine ⟨by decide +kernel, (by intro c hc; cases hc), (by intro hc; cases hc), one _ (by decide +kernel), ?_⟩
  intro s1 h1; cases h1
  refine ⟨by decide +kernel, (by intro c hc; cases hc), (by intro hc; cases hc), one _ (by decide +kernel), ?_⟩
  intro s1 h1; cases h1
  refine ⟨by decide +kernel, (by intro c hc; cases hc), (by intro hc; cases hc), one _ (by decide +kernel), ?_⟩
  intro s1 h1; cases h1
  refine ⟨by decide +kernel, (by intro c hc; cases hc), (by intro hc; cases hc), one _ (by decide +kernel), ?_⟩
  intro s1 h1; cases h1
  refine ⟨by decide +kernel, (by intro c hc; cases hc), (by intro hc; cases hc), one _ (by decide +kernel), ?_⟩
  intro s1 h1; cases h1
  refine ⟨by decide +kernel, (by intro c hc; cases hc), (by intro hc; cases hc), one _ (by decide +kernel), ?_⟩
  intro s1 h1; cases h1
  trivial

/-- **C100**, stalled. A call that waits for room in the channel of a peer that does not read holds a lock of the pool. Until the
peer reads or its socket fails: the call goes on waiting, no call to any other peer in the same part of the map gets past its
look-up, no cleanup runs, and no call that needs a slot can make room. -/
theorem C100_stalls (cfg : Cfg K) (as : List (Act K)) (s s' : State K) (h : Reach cfg s) (hr : run cfg s as = some s')
    (i : Nat) (key k : K) (c : Nat) (f : Bool) (x : Conn K) (hi : s.tasks[i]? = some ⟨key, .waiting k c f⟩)
    (hx : s.conns[c]? = some x) (hw : x.writer = .running) (hq : 64 ≤ x.queue.length)
    (h1 : Act.write c ∉ as) (h2 : Act.exit c ∉ as) :
    s'.tasks[i]? = some ⟨key, .waiting k c f⟩ ∧ Act.cleanup ∉ as ∧
    (∀ (j : Nat) (key' k' : K) (f' : Bool), s.tasks[j]? = some ⟨key', .look k' f'⟩ → cfg.shard k' = cfg.shard k →
      s'.tasks[j]? = some ⟨key', .look k' f'⟩) ∧
    ∀ (j : Nat) (key' : K), s.tasks[j]? = some ⟨key', .clean⟩ → s'.tasks[j]? = some ⟨key', .clean⟩ := by
  have ha : x.aborted = false := by
    obtain ⟨e, h3, h4⟩ := reach_guarded h i key k c f hi
    have := entry_live (reach_owned h) h3
    rw [h4, live_iff] at this
    obtain ⟨y, hy, hya⟩ := this
    rw [hx] at hy
    cases hy
    exact hya
  have main : ∀ (as : List (Act K)) (s : State K), Reach cfg s → run cfg s as = some s' → Stuck s i key k c f →
      Act.write c ∉ as → Act.exit c ∉ as → s'.tasks[i]? = some ⟨key, .waiting k c f⟩ ∧ Act.cleanup ∉ as ∧
      (∀ (j : Nat) (key' k' : K) (f' : Bool), s.tasks[j]? = some ⟨key', .look k' f'⟩ → cfg.shard k' = cfg.shard k →
        s'.tasks[j]? = some ⟨key', .look k' f'⟩) ∧
      ∀ (j : Nat) (key' : K), s.tasks[j]? = some ⟨key', .clean⟩ → s'.tasks[j]? = some ⟨key', .clean⟩ := by
    intro as
    induction as with
    | nil =>
      intro s _ hr hst _ _
      cases hr
      exact ⟨hst.task, by simp, fun _ _ _ _ h _ => h, fun _ _ h => h⟩
    | cons a as ih =>
      intro s hre hr hst h1 h2
      simp only [run] at hr
      cases hs : step cfg s a with
      | none => rw [hs] at hr; cases hr
      | some s1 =>
        rw [hs] at hr
        have h1a : a ≠ .write c := fun hh => h1 (by rw [hh]; exact List.mem_cons_self)
        have h2a : a ≠ .exit c := fun hh => h2 (by rw [hh]; exact List.mem_cons_self)
        have hst1 := step_stuck hre hst h1a h2a hs
        obtain ⟨g1, g2, g3, g4⟩ := ih s1 (reach_step hre hs) hr hst1 (fun hh => h1 (List.mem_cons_of_mem _ hh))
          (fun hh => h2 (List.mem_cons_of_mem _ hh))
        refine ⟨g1, ?_, ?_, ?_⟩
        · intro hm
          rcases List.mem_cons.mp hm with hm | hm
          · subst hm
            simp only [step] at hs
            rw [not_allFree hst.task] at hs
            cases hs
          · exact g2 hm
        · intro j key' k' f' hj hk
          refine g3 j key' k' f' (step_other hj ?_ hs) hk
          rintro ok hint rfl
          simp only [step, taskStep] at hs
          rw [hj] at hs
          simp only at hs
          rw [not_free hst.task hk] at hs
          cases hs
        · intro j key' hj
          refine g4 j key' (step_other hj ?_ hs)
          rintro ok hint rfl
          simp only [step, taskStep] at hs
          rw [hj] at hs
          simp only at hs
          rw [not_allFree hst.task] at hs
          cases hs
  exact main as s h hr ⟨hi, x, hx, hw, ha, hq⟩ h1 h2

/-- Sixty-five messages to a peer that does not read, and one to another peer, which does not get anywhere. -/
example : (run smallPool (init smallPool)
      (opened (.tcp 1) 0 ++ (List.range 64).flatMap (fun n => reused (.tcp 1) (n + 1)) ++ [.call (.tcp 2)])).map (fun s =>
        (s.tasks[64]?, s.tasks[65]?, (s.conns[0]?).map (fun x => (x.queue.length, x.writer)))) =
      some (some ⟨.tcp 1, .waiting (.tcp 1) 0 true⟩, some ⟨.tcp 2, .look (.tcp 2) true⟩, some (64, .running)) ∧
    smallPool.shard (.tcp 2) = smallPool.shard (.tcp 1) := by
  decide +kernel

/-! ## C101: events -/

/-- **C101.** A connection is reported at most once, and only after its writer has stopped; a WebSocket never. -/
theorem C101_once (cfg : Cfg K) (s : State K) (h : Reach cfg s) :
    (s.events.map (·.1)).Nodup ∧ ∀ c b, (c, b) ∈ s.events → ∃ x, s.conns[c]? = some x ∧ x.writer ≠ .running ∧ cfg.reports x.key = true := by
  have hd := reach_deliver h
  refine ⟨hd.told, ?_⟩
  intro c b hb
  obtain ⟨x, h1, h2, h3, _⟩ := (hd.events c b).mp hb
  exact ⟨x, h1, (hd.conn c x h1).over h2, h3⟩

/-- **C101.** Every connection that is told to stop or has stopped is reported by the next two steps of its own tasks, as far as
no call holds the lock of its key. -/
theorem C101_reported (cfg : Cfg K) (s : State K) (h : Reach cfg s) (c : Nat) (x : Conn K) (hx : s.conns[c]? = some x)
    (hrep : cfg.reports x.key = true) (hend : x.writer ≠ .running ∨ x.aborted = true)
    (hf : ∀ (j : Nat) (key k : K) (c' : Nat) (f : Bool), s.tasks[j]? = some ⟨key, .waiting k c' f⟩ → cfg.shard k ≠ cfg.shard x.key) :
    (∃ b, (c, b) ∈ s.events) ∨ ∃ as s' b, as ⊆ [.cancel c, .supervise c] ∧ run cfg s as = some s' ∧ (c, b) ∈ s'.events := by
  have hd := reach_deliver h
  have hfree : ∀ s1 : State K, s1.tasks = s.tasks → free cfg s1 x.key = true := by
    intro s1 h1
    simp only [free, Bool.not_eq_true', List.any_eq_false]
    intro t ht
    rw [h1] at ht
    obtain ⟨j, hj⟩ := List.getElem?_of_mem ht
    obtain ⟨key, pc⟩ := t
    cases pc with
    | waiting k c' f =>
      have := hf j key k c' f hj
      simp only [holds, beq_iff_eq]
      exact this
    | _ => simp [holds]
  by_cases hsup : x.supervised = true
  · left
    by_cases hc : x.writer = .cancelled
    · exact ⟨true, (hd.events c true).mpr ⟨x, hx, hsup, hrep, by simp [hc]⟩⟩
    · exact ⟨false, (hd.events c false).mpr ⟨x, hx, hsup, hrep, by simp [hc]⟩⟩
  · right
    by_cases hr : x.writer = .running
    · have ha : x.aborted = true := by
        rcases hend with h' | h'
        · exact absurd hr h'
        · exact h'
      have h1 : step cfg s (.cancel c) = some (s.setConn c (fun x => { x with writer := .cancelled })) := by
        simp only [step]
        rw [hx]
        simp only
        rw [if_pos ⟨hr, ha⟩]
      have hx1 : (s.setConn c (fun x => { x with writer := .cancelled })).conns[c]? = some { x with writer := .cancelled } := by
        unfold State.setConn
        simp only
        rw [get_modify _ _ _ _ _ hx]
        simp
      have h2 : step cfg (s.setConn c (fun x => { x with writer := .cancelled })) (.supervise c) =
          some (supervise cfg (s.setConn c (fun x => { x with writer := .cancelled })) c { x with writer := .cancelled }) := by
        simp only [step]
        rw [hx1]
        simp only
        rw [if_neg]
        rw [hfree (s.setConn c (fun x => { x with writer := .cancelled })) rfl]
        simp [hsup]
      refine ⟨[.cancel c, .supervise c], _, true, List.Subset.refl _, by simp only [run]; rw [h1]; simp only [Option.bind_some]; rw [h2]; rfl, ?_⟩
      unfold supervise
      simp [hrep]
    · have h2 : step cfg s (.supervise c) = some (supervise cfg s c x) := by
        simp only [step]
        rw [hx]
        simp only
        rw [if_neg]
        rw [hfree _ rfl]
        simp [hsup, hr]
      refine ⟨[.supervise c], _, x.writer == .cancelled, by simp, by simp only [run]; rw [h2]; rfl, ?_⟩
      unfold supervise
      simp [hrep]

/-- **C101**, false. The documentation says `Failed` for errors, `Closed` for what the pool closes. A connection whose write fails is
never reported as `Failed`. -/
theorem C101_failure_is_closed (cfg : Cfg K) (s s1 s2 : State K) (as : List (Act K)) (h : Reach cfg s) (c : Nat)
    (hs : step cfg s (.exit c) = some s1) (hr : run cfg s1 as = some s2) : (c, true) ∉ s2.events := by
  have h1 : ∃ x, s1.conns[c]? = some x ∧ x.writer = .exited := by
    simp only [step] at hs
    split at hs
    · cases hs
    · rename_i x hx
      split at hs
      · cases hs
        refine ⟨_, get_modify _ _ c c x hx, ?_⟩
        simp
      · cases hs
  have main : ∀ (as : List (Act K)) (s1 : State K), Reach cfg s1 → (∃ x, s1.conns[c]? = some x ∧ x.writer = .exited) →
      run cfg s1 as = some s2 → ∃ x, s2.conns[c]? = some x ∧ x.writer = .exited := by
    intro as
    induction as with
    | nil =>
      intro s1 _ hx hr
      cases hr
      exact hx
    | cons a as ih =>
      rintro s1 hre ⟨x, hx, hxw⟩ hr
      simp only [run] at hr
      cases hst : step cfg s1 a with
      | none => rw [hst] at hr; cases hr
      | some s3 =>
        rw [hst] at hr
        obtain ⟨x', hx', he⟩ := step_effect (reach_counted hre).nodup hx hst
        refine ih s3 (reach_step hre hst) ⟨x', hx', ?_⟩ hr
        rcases he.writer with h' | ⟨h', _⟩
        · rw [h', hxw]
        · rw [hxw] at h'; cases h'
  have hre1 := reach_step h hs
  obtain ⟨x, hx, hxw⟩ := main as s1 hre1 h1 hr
  intro hm
  obtain ⟨y, hy, _, _, h4⟩ := ((reach_deliver (reach_run as hre1 hr)).events c true).mp hm
  rw [hx] at hy
  cases hy
  have := h4.mp rfl
  rw [hxw] at this
  cases this

/-- **C101**, false. What is reported as `Failed` was always dropped by the pool itself: idle, evicted or replaced, or after its peer's
other connection ended. -/
theorem C101_failed_is_dropped (cfg : Cfg K) (s : State K) (h : Reach cfg s) (c : Nat) (hm : (c, true) ∈ s.events) :
    ∃ x, s.conns[c]? = some x ∧ x.aborted = true := by
  have inv : ∀ (c : Nat) (x : Conn K), s.conns[c]? = some x → x.writer = .cancelled → x.aborted = true := by
    obtain ⟨as, hr⟩ := h
    refine (run_inv (P := fun s => Counted cfg s ∧ ∀ (c : Nat) (x : Conn K), s.conns[c]? = some x → x.writer = .cancelled → x.aborted = true)
      (fun s a s' hp hs => ⟨step_counted hp.1 hs, ?_⟩) as _ _ ⟨reach_counted ⟨[], rfl⟩, fun c x hx => by simp [init] at hx⟩ hr).2
    intro c x' hx'
    refine conns_inv (P := fun _ _ x => x.writer = .cancelled → x.aborted = true) hp.1.nodup hp.2 (fun _ _ hh => by cases hh) ?_ hs c x' hx'
    intro c x x' hh he hw
    rcases he.writer with h' | ⟨_, ⟨_, h'⟩ | ⟨_, h', _⟩⟩
    · exact he.mono (hh (by rw [← h', hw]))
    · rw [hw] at h'; cases h'
    · exact he.mono h'
  obtain ⟨x, hx, _, _, h4⟩ := ((reach_deliver h).events c true).mp hm
  exact ⟨x, hx, inv c x hx (h4.mp rfl)⟩

/-- A write that fails is reported as `Closed`, an idle connection that the pool closes as `Failed`. -/
theorem C101_swapped : (∃ s, run smallPool (init smallPool) (opened (.tcp 1) 0 ++ [.exit 0, .supervise 0]) = some s ∧ s.events = [(0, false)]) ∧
    ∃ s, run smallPool (init smallPool) (opened (.tcp 1) 0 ++ [.write 0, .tick 301, .cleanup, .cancel 0, .supervise 0]) = some s ∧
      s.events = [(0, true)] := by
  refine ⟨⟨_, rfl, ?_⟩, ⟨_, rfl, ?_⟩⟩
  · decide +kernel
  · decide +kernel

end Siphon.Pool
