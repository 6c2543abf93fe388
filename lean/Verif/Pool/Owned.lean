import Verif.Pool.Deliver
set_option linter.unusedSimpArgs false
set_option linter.unusedSectionVars false
/-!
# Lemmas: who keeps a connection
-/
namespace Siphon.Pool
variable {K : Type} [DecidableEq K]

/-- The connection exists and has not been told to stop. -/
def live (conns : List (Conn K)) (c : Nat) : Bool :=
  match conns[c]? with
  | none => false
  | some x => !x.aborted

def isConn (c : Nat) (t : Task K) : Bool :=
  match t.pc with
  | .connected c' => c' == c
  | _ => false

def mapOwn (m : Tbl K Entry) (c : Nat) : Nat := m.countP (fun p => p.2.conn == c)
def pcOwn (tasks : List (Task K)) (c : Nat) : Nat := tasks.countP (isConn c)

/-- A connection that has not been told to stop is in the map once, or a call is about to put it there. -/
def Owned (s : State K) : Prop := ∀ c, mapOwn s.map c + pcOwn s.tasks c = (live s.conns c).toNat

theorem live_iff (conns : List (Conn K)) (c : Nat) : live conns c = true ↔ ∃ x, conns[c]? = some x ∧ x.aborted = false := by
  unfold live
  cases h : conns[c]? with
  | none => simp
  | some x => simp

theorem pcOwn_setPc (tasks : List (Task K)) (i : Nat) (t : Task K) (pc : Pc K) (ht : tasks[i]? = some t) (c : Nat) :
    pcOwn (tasks.modify i (fun t => { t with pc := pc })) c + (if isConn c t then 1 else 0) =
      pcOwn tasks c + (if isConn c ⟨t.key, pc⟩ then 1 else 0) := countP_modify _ _ tasks i t ht

theorem owned_setPc {s : State K} {i : Nat} {t : Task K} (h : Owned s) (ht : s.tasks[i]? = some t) (pc : Pc K)
    (h1 : ∀ c, isConn c t = false) (h2 : ∀ c, isConn c ⟨t.key, pc⟩ = false) : Owned (s.setPc i pc) := by
  intro c
  have := pcOwn_setPc s.tasks i t pc ht c
  rw [h1, h2] at this
  have := h c
  simp only [State.setPc] at *
  simp only [Bool.false_eq_true, if_false] at *
  omega

theorem live_modify (conns : List (Conn K)) (c : Nat) (f : Conn K → Conn K) (hf : ∀ x, (f x).aborted = x.aborted) (c' : Nat) :
    live (conns.modify c f) c' = live conns c' := by
  unfold live
  rw [List.getElem?_modify]
  cases conns[c']? with
  | none => rfl
  | some x =>
    simp only [Option.map_eq_map, Option.map_some]
    split
    · rw [hf]
    · rfl

theorem owned_setConn {s : State K} (h : Owned s) (c : Nat) (f : Conn K → Conn K) (hf : ∀ x, (f x).aborted = x.aborted) :
    Owned (s.setConn c f) := by
  intro c'
  unfold State.setConn
  simp only
  rw [live_modify _ _ _ hf]
  exact h c'

theorem mapOwn_update (m : Tbl K Entry) (k : K) (f : Entry → Entry) (hf : ∀ e, (f e).conn = e.conn) (c : Nat) :
    mapOwn (Tbl.update m k f) c = mapOwn m c := by
  unfold mapOwn Tbl.update
  rw [List.countP_map]
  congr 1
  funext p
  simp only [Function.comp]
  split
  · rw [hf]
  · rfl

theorem owned_touch {s : State K} (h : Owned s) (k : K) : Owned (s.touch k) := by
  intro c
  unfold State.touch
  simp only
  rw [mapOwn_update]
  · exact h c
  · intro e; rfl

theorem mapOwn_remove (m : Tbl K Entry) (k : K) (e : Entry) (hn : (Tbl.keys m).Nodup) (hg : Tbl.get m k = some e) (c : Nat) :
    mapOwn (Tbl.remove m k) c + (if e.conn = c then 1 else 0) = mapOwn m c := by
  induction m with
  | nil => cases hg
  | cons p m ih =>
    obtain ⟨k', v⟩ := p
    simp only [Tbl.keys, List.map_cons, List.nodup_cons] at hn
    rw [Tbl.get_cons] at hg
    by_cases hk : k' = k
    · subst hk
      rw [if_pos rfl] at hg
      have hve : v = e := Option.some.inj hg
      subst hve
      have hrem : Tbl.remove ((k', v) :: m) k' = m := by
        have := Tbl.remove_of_not_mem m k' hn.1
        unfold Tbl.remove at this ⊢
        rw [List.filter_cons]
        simp only [ne_eq, not_true_eq_false, decide_false, Bool.false_eq_true, if_false]
        simpa using this
      rw [hrem]
      unfold mapOwn
      rw [List.countP_cons]
      simp [beq_iff_eq]
    · rw [if_neg hk] at hg
      have := ih hn.2 hg
      have hrem : Tbl.remove ((k', v) :: m) k = (k', v) :: Tbl.remove m k := by
        unfold Tbl.remove
        rw [List.filter_cons]
        simp [hk]
      rw [hrem]
      unfold mapOwn at this ⊢
      rw [List.countP_cons, List.countP_cons]
      omega

theorem live_abort (conns : List (Conn K)) (c c' : Nat) :
    live (conns.modify c (fun x => { x with aborted := true })) c' = if c = c' then false else live conns c' := by
  unfold live
  rw [List.getElem?_modify]
  cases conns[c']? with
  | none => simp
  | some x =>
    simp only [Option.map_eq_map, Option.map_some]
    split <;> simp

theorem mapOwn_pos (m : Tbl K Entry) (k : K) (e : Entry) (hg : Tbl.get m k = some e) : 0 < mapOwn m e.conn := by
  unfold mapOwn
  rw [List.countP_pos_iff]
  exact ⟨(k, e), Tbl.mem_of_get _ _ _ hg, by simp⟩

theorem owned_removeKey {s : State K} (h : Owned s) (hn : (Tbl.keys s.map).Nodup) (k : K) : Owned (s.removeKey k) := by
  unfold State.removeKey
  split
  · exact h
  · rename_i e he
    intro c
    have h1 := mapOwn_remove s.map k e hn he c
    have h2 := h c
    unfold State.drop State.setConn
    simp only
    rw [live_abort]
    by_cases hc : e.conn = c
    · subst hc
      have h3 := mapOwn_pos s.map k e he
      rw [if_pos rfl] at h1 ⊢
      have h4 : (live s.conns e.conn).toNat ≤ 1 := by cases live s.conns e.conn <;> decide
      simp only [Bool.toNat_false]
      omega
    · rw [if_neg hc] at h1 ⊢
      omega

theorem removeKey_nodup {s : State K} (hn : (Tbl.keys s.map).Nodup) (k : K) : (Tbl.keys (s.removeKey k).map).Nodup := by
  rw [removeKey_map]
  exact Tbl.nodup_remove _ _ hn

theorem owned_removeKeys : ∀ (ks : List K) {s : State K}, Owned s → (Tbl.keys s.map).Nodup → Owned (ks.foldl State.removeKey s)
  | [], _, h, _ => h
  | k :: ks, s, h, hn => by
    rw [List.foldl_cons]
    exact owned_removeKeys ks (owned_removeKey h hn k) (removeKey_nodup hn k)

theorem owned_insertKey {s : State K} {i c : Nat} {key : K} (h : Owned s) (hn : (Tbl.keys s.map).Nodup)
    (ht : s.tasks[i]? = some ⟨key, .connected c⟩) (now : Nat) : Owned ((s.insertKey key ⟨c, now⟩).setPc i (.sending c)) := by
  intro c'
  have h1 := owned_removeKey h hn key c'
  have h2 := pcOwn_setPc s.tasks i ⟨key, .connected c⟩ (.sending c) ht c'
  have hm : key ∉ Tbl.keys (s.removeKey key).map := by
    rw [removeKey_map]
    exact Tbl.not_mem_keys_remove _ _
  simp only [State.setPc, insertKey_tasks]
  rw [removeKey_tasks] at h1
  have h3 : mapOwn (s.insertKey key ⟨c, now⟩).map c' = mapOwn (s.removeKey key).map c' + (if c = c' then 1 else 0) := by
    unfold State.insertKey
    simp only [Tbl.insert, Tbl.remove_of_not_mem _ _ hm]
    unfold mapOwn
    rw [List.countP_cons]
    simp [beq_iff_eq]
  have h4 : (s.insertKey key ⟨c, now⟩).conns = (s.removeKey key).conns := rfl
  have h5 : isConn c' (⟨key, .sending c⟩ : Task K) = false := rfl
  have h6 : isConn c' (⟨key, .connected c⟩ : Task K) = decide (c = c') := by
    unfold isConn
    simp only
    cases hd : decide (c = c') with
    | true => simpa using hd
    | false => simpa using hd
  rw [h5, h6] at h2
  rw [h3, h4]
  simp only [decide_eq_true_eq, Bool.false_eq_true, if_false] at h2
  omega

theorem owned_push {s : State K} {i c : Nat} {t : Task K} (h : Owned s) (ht : s.tasks[i]? = some t)
    (h1 : ∀ c, isConn c t = false) : Owned (s.push c i) := by
  unfold State.push
  refine owned_setPc (t := t) (owned_setConn h c _ ?_) ht _ h1 (fun _ => rfl)
  intro x; rfl

theorem offer_owned {s w cl : State K} {i c : Nat} {t : Task K} (h : Owned s) (ht : s.tasks[i]? = some t)
    (h1 : ∀ c, isConn c t = false) (hw : Owned w) (hc : Owned cl) : Owned (s.offer i c w cl) := by
  unfold State.offer
  split
  · exact hc
  · split
    · split
      · exact owned_push h ht h1
      · exact hw
    · exact hc

theorem afterFailed_noConn (key : K) (first : Bool) (c : Nat) : isConn c (⟨key, afterFailed first⟩ : Task K) = false := by
  cases first <;> rfl

theorem taskStep_owned {cfg : Cfg K} {s s' : State K} {i : Nat} {ok : Bool} {hint : Option K} (h : Owned s)
    (hd : Counted cfg s) (hD : Deliver cfg s) (hs : taskStep cfg s i ok hint = some s') : Owned s' := by
  have hn := hd.nodup
  unfold taskStep at hs
  split at hs
  · cases hs
  · rename_i key k first ht
    split at hs
    · cases hs
    · split at hs
      · cases hs
        exact owned_setPc h ht _ (fun _ => rfl) (fun c => afterFailed_noConn key first c)
      · cases hs
        have htch := owned_touch h k
        exact offer_owned (t := ⟨key, .look k first⟩) htch ht (fun _ => rfl)
          (owned_setPc htch ht _ (fun _ => rfl) (fun _ => rfl)) (owned_setPc htch ht _ (fun _ => rfl) (fun _ => rfl))
  · rename_i key k c first ht
    cases hs
    exact offer_owned (t := ⟨key, .waiting k c first⟩) h ht (fun _ => rfl) h (owned_setPc h ht _ (fun _ => rfl) (fun _ => rfl))
  · rename_i key k first ht
    split at hs
    · cases hs
    · cases hs
      exact owned_setPc (owned_removeKey h hn k) (by rw [removeKey_tasks]; exact ht) _ (fun _ => rfl)
        (fun c => afterFailed_noConn key first c)
  · rename_i key ht
    split at hs
    · split at hs
      · cases hs
        exact owned_setPc h ht _ (fun _ => rfl) (fun _ => rfl)
      · cases hs
    · split at hs
      · cases hs
      · cases hs
        exact owned_setPc h ht _ (fun _ => rfl) (fun _ => rfl)
  · rename_i key n ht
    split at hs
    · cases hs
      have h' : Owned { s with avail := s.avail - 1 } := h
      exact owned_setPc h' ht _ (fun _ => rfl) (fun _ => rfl)
    · split at hs <;> cases hs <;> exact owned_setPc h ht _ (fun _ => rfl) (fun _ => rfl)
  · rename_i key ht
    split at hs
    · cases hs
    · cases hs
      have h' : Owned (cleanup cfg s) := owned_removeKeys _ h hn
      have ht' : (cleanup cfg s).tasks[i]? = some ⟨key, .clean⟩ := by
        unfold cleanup
        rw [removeKeys_tasks]
        exact ht
      exact owned_setPc h' ht' _ (fun _ => rfl) (fun _ => rfl)
  · rename_i key ht
    split at hs
    · cases hs
    · cases hs
      exact owned_setPc h ht _ (fun _ => rfl) (fun _ => rfl)
  · rename_i key ht
    cases hs
    exact owned_setPc h ht _ (fun _ => rfl) (fun _ => rfl)
  · rename_i key k ks ht
    split at hs
    · cases hs
    · cases hs
      exact owned_setPc (owned_removeKey h hn k) (by rw [removeKey_tasks]; exact ht) _ (fun _ => rfl) (fun _ => rfl)
  · rename_i key ht
    split at hs
    · cases hs
      intro c
      have h1 := h c
      have h2 := pcOwn_setPc s.tasks i ⟨key, .connecting⟩ (.connected s.conns.length) ht c
      have h5 : isConn c (⟨key, .connecting⟩ : Task K) = false := rfl
      have h6 : isConn c (⟨key, .connected s.conns.length⟩ : Task K) = decide (s.conns.length = c) := by
        unfold isConn
        simp only
        cases hd : decide (s.conns.length = c) with
        | true => simpa using hd
        | false => simpa using hd
      rw [h5, h6] at h2
      simp only [decide_eq_true_eq, Bool.false_eq_true, if_false] at h2
      simp only [State.setPc]
      have h7 : (live (s.conns ++ [({ key := key } : Conn K)]) c).toNat =
          (live s.conns c).toNat + (if s.conns.length = c then 1 else 0) := by
        by_cases hl : c < s.conns.length
        · rw [if_neg (by omega)]
          unfold live
          rw [List.getElem?_append_left hl]
          rfl
        · have hno : s.conns[c]? = none := by
            rw [List.getElem?_eq_none_iff]
            omega
          unfold live
          rw [hno, List.getElem?_append_right (by omega)]
          by_cases hc : s.conns.length = c
          · subst hc
            simp
          · rw [if_neg hc]
            have : ([({ key := key } : Conn K)] : List (Conn K))[c - s.conns.length]? = none := by
              rw [List.getElem?_eq_none_iff]
              simp
              omega
            rw [this]
            rfl
      rw [h7]
      omega
    · cases hs
      have h' : Owned { s with avail := s.avail + 1 } := h
      exact owned_setPc h' ht _ (fun _ => rfl) (fun _ => rfl)
  · rename_i key c ht
    split at hs
    · cases hs
    · cases hs
      exact owned_insertKey h hn ht s.now
  · rename_i key c ht
    cases hs
    exact offer_owned (t := ⟨key, .sending c⟩) h ht (fun _ => rfl) h (owned_setPc h ht _ (fun _ => rfl) (fun _ => rfl))
  · rename_i key ht
    split at hs
    · cases hs
    · cases hs
      exact owned_setPc (owned_removeKey h hn key) (by rw [removeKey_tasks]; exact ht) _ (fun _ => rfl) (fun _ => rfl)
  · cases hs

theorem step_owned {cfg : Cfg K} {s s' : State K} {a : Act K} (h : Owned s) (hd : Counted cfg s) (hD : Deliver cfg s)
    (hs : step cfg s a = some s') : Owned s' := by
  cases a with
  | call k =>
    cases hs
    intro c
    have := h c
    simp only
    unfold pcOwn at *
    rw [List.countP_append]
    simp only [List.countP_cons, List.countP_nil, isConn]
    simpa using this
  | task i ok hint => exact taskStep_owned h hd hD hs
  | write c =>
    simp only [step] at hs
    split at hs
    · cases hs
    · split at hs
      · cases hs
        exact owned_setConn h c _ (fun _ => rfl)
      · cases hs
  | exit c =>
    simp only [step] at hs
    split at hs
    · cases hs
    · split at hs
      · cases hs
        exact owned_setConn h c _ (fun _ => rfl)
      · cases hs
  | cancel c =>
    simp only [step] at hs
    split at hs
    · cases hs
    · split at hs
      · cases hs
        exact owned_setConn h c _ (fun _ => rfl)
      · cases hs
  | supervise c =>
    simp only [step] at hs
    split at hs
    · cases hs
    · rename_i x hx
      split at hs
      · cases hs
      · cases hs
        unfold supervise
        have := owned_setConn (owned_removeKey h hd.nodup x.key) c (fun y => { y with supervised := true }) (fun _ => rfl)
        exact this
  | cleanup =>
    simp only [step] at hs
    split at hs
    · cases hs
    · cases hs
      exact owned_removeKeys _ h hd.nodup
  | tick d =>
    cases hs
    exact h

theorem reach_owned {cfg : Cfg K} {s : State K} (h : Reach cfg s) : Owned s := by
  obtain ⟨as, h⟩ := h
  refine (run_inv (P := fun s => Owned s ∧ Counted cfg s ∧ Deliver cfg s)
    (fun s a s' hp hs => ⟨step_owned hp.1 hp.2.1 hp.2.2 hs, step_counted hp.2.1 hs, step_deliver hp.2.2 hs⟩) as _ _ ?_ h).1
  refine ⟨?_, reach_counted ⟨[], rfl⟩, reach_deliver ⟨[], rfl⟩⟩
  intro c
  simp [init, mapOwn, pcOwn, live]

/-! ## How many there are -/

theorem sum_add (g1 g2 : Nat → Nat) : ∀ m : List Nat, (m.map (fun c => g1 c + g2 c)).sum = (m.map g1).sum + (m.map g2).sum
  | [] => rfl
  | x :: m => by
    have := sum_add g1 g2 m
    simp only [List.map_cons, List.sum_cons, this]
    omega

theorem sum_zero : ∀ m : List Nat, (m.map (fun _ => 0)).sum = 0
  | [] => rfl
  | x :: m => by simp only [List.map_cons, List.sum_cons, sum_zero m]

theorem sum_one (x : Nat) : ∀ n, ((List.range n).map (fun c => if x = c then 1 else 0)).sum = if x < n then 1 else 0
  | 0 => by simp
  | n + 1 => by
    rw [List.range_succ, List.map_append, List.sum_append, sum_one x n]
    simp only [List.map_cons, List.map_nil, List.sum_cons, List.sum_nil]
    split <;> split <;> split <;> omega

/-- Things counted by a number each has, below a bound. -/
theorem sum_count {α : Type} (f : α → Option Nat) : ∀ (l : List α) (n : Nat), (∀ a c, a ∈ l → f a = some c → c < n) →
    ((List.range n).map (fun c => l.countP (fun a => f a == some c))).sum = l.countP (fun a => (f a).isSome)
  | [], n, _ => by
    simp only [List.countP_nil]
    exact sum_zero _
  | a :: l, n, h => by
    have ih := sum_count f l n (fun b c hb => h b c (List.mem_cons_of_mem _ hb))
    simp only [List.countP_cons]
    rw [sum_add, ih]
    congr 1
    cases hf : f a with
    | none =>
      have : (fun c : Nat => if ((none : Option Nat) == some c) = true then 1 else 0) = fun _ => 0 := by
        funext c
        simp
      rw [this, sum_zero]
      rfl
    | some x =>
      have hx := h a x (List.mem_cons_self) hf
      have : (fun c : Nat => if ((some x : Option Nat) == some c) = true then 1 else 0) = fun c => if x = c then 1 else 0 := by
        funext c
        simp
      rw [this, sum_one, if_pos hx]
      rfl

theorem sum_live : ∀ (conns : List (Conn K)), ((List.range conns.length).map (fun c => (live conns c).toNat)).sum =
    conns.countP (fun x => !x.aborted)
  | [] => rfl
  | x :: conns => by
    have ih := sum_live conns
    rw [List.length_cons, List.range_succ_eq_map, List.map_cons, List.sum_cons, List.map_map, List.countP_cons, ← ih]
    have h1 : ((fun c => (live (x :: conns) c).toNat) ∘ Nat.succ) = fun c => (live conns c).toNat := by
      funext c
      simp [live]
    have h2 : (live (x :: conns) 0).toNat = if (!x.aborted) = true then 1 else 0 := by
      unfold live
      simp only [List.getElem?_cons_zero]
      cases x.aborted <;> rfl
    rw [h1, h2]
    omega

/-- The call has a connection that is not in the map yet. -/
def held (t : Task K) : Bool :=
  match t.pc with
  | .connected _ => true
  | _ => false

theorem live_count {cfg : Cfg K} {s : State K} (h : Owned s) (hd : Deliver cfg s) :
    s.conns.countP (fun x => !x.aborted) = s.map.length + s.tasks.countP held := by
  rw [← sum_live]
  have h1 : (fun c => (live s.conns c).toNat) = fun c => mapOwn s.map c + pcOwn s.tasks c := by
    funext c
    exact (h c).symm
  rw [h1, sum_add]
  congr 1
  · have := sum_count (fun p : K × Entry => some p.2.conn) s.map s.conns.length (fun p c hp hc => by
      cases hc
      have hpos : 0 < mapOwn s.map p.2.conn := by
        unfold mapOwn
        rw [List.countP_pos_iff]
        exact ⟨p, hp, by simp⟩
      have hc := h p.2.conn
      have : live s.conns p.2.conn = true := by
        cases hl : live s.conns p.2.conn with
        | true => rfl
        | false => rw [hl] at hc; simp at hc; omega
      obtain ⟨x, hx, _⟩ := (live_iff _ _).mp this
      exact (List.getElem?_eq_some_iff.mp hx).1)
    simp only [Option.isSome_some, List.countP_true] at this
    rw [← this]
    congr 1
  · have := sum_count (fun t : Task K => match t.pc with | .connected c => some c | _ => none) s.tasks s.conns.length
      (fun t c ht hc => by
        obtain ⟨i, hi⟩ := List.getElem?_of_mem ht
        have hp := hd.pcs i t hi
        obtain ⟨key, pc⟩ := t
        cases pc with
        | connected c' =>
          cases hc
          obtain ⟨x, hx, _⟩ := hp
          exact (List.getElem?_eq_some_iff.mp hx).1
        | _ => cases hc)
    have e : ∀ t : Task K, (match t.pc with | .connected c => some c | _ => none : Option Nat).isSome = held t := by
      rintro ⟨key, pc⟩
      cases pc <;> rfl
    have e2 : ∀ (t : Task K) (c : Nat), ((match t.pc with | .connected c => some c | _ => none : Option Nat) == some c) = isConn c t := by
      rintro ⟨key, pc⟩ c
      cases pc <;> simp [isConn]
    simp only [e, e2] at this
    exact this

end Siphon.Pool
