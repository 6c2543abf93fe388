import Verif.Pool.Lemmas
set_option linter.unusedSimpArgs false
set_option linter.unusedSectionVars false
/-!
# Lemmas: what becomes of messages
-/
namespace Siphon.Pool
variable {K : Type} [DecidableEq K]

/-- A connection that may be used for a key. -/
def Near (cfg : Cfg K) (key k : K) : Prop := k = key ∨ cfg.alike key k = true

def At (conns : List (Conn K)) (c : Nat) (k : K) : Prop := ∃ x, conns[c]? = some x ∧ x.key = k

/-- The connections a call knows. -/
def PcOk (cfg : Cfg K) (conns : List (Conn K)) (t : Task K) : Prop :=
  match t.pc with
  | .look k _ => Near cfg t.key k
  | .waiting k c _ => Near cfg t.key k ∧ At conns c k
  | .failed k _ => Near cfg t.key k
  | .connected c => At conns c t.key
  | .sending c => At conns c t.key
  | .done (some c) => ∃ k, Near cfg t.key k ∧ At conns c k
  | _ => True

/-- The call has put its message into the channel of this connection. -/
def Took (tasks : List (Task K)) (i c : Nat) : Prop := ∃ k, tasks[i]? = some ⟨k, .done (some c)⟩

structure ConnOk (tasks : List (Task K)) (c : Nat) (x : Conn K) : Prop where
  running : x.writer = .running → x.taken = x.wire ++ x.queue
  wire : x.wire <+: x.taken
  nodup : x.taken.Nodup
  taken : ∀ i, i ∈ x.taken ↔ Took tasks i c
  over : x.supervised = true → x.writer ≠ .running

structure Deliver (cfg : Cfg K) (s : State K) : Prop where
  entry : ∀ k e, Tbl.get s.map k = some e → At s.conns e.conn k
  pcs : ∀ (i : Nat) (t : Task K), s.tasks[i]? = some t → PcOk cfg s.conns t
  conn : ∀ (c : Nat) (x : Conn K), s.conns[c]? = some x → ConnOk s.tasks c x
  told : (s.events.map (·.1)).Nodup
  events : ∀ c b, (c, b) ∈ s.events ↔ ∃ x, s.conns[c]? = some x ∧ x.supervised = true ∧ cfg.reports x.key = true ∧
    (b = true ↔ x.writer = .cancelled)

/-! ## Aborting changes nothing that matters here -/

def view (x : Conn K) : Conn K := { x with aborted := false }

theorem view_get {a b : List (Conn K)} (h : a.map view = b.map view) (c : Nat) (x : Conn K) (hx : a[c]? = some x) :
    ∃ y, b[c]? = some y ∧ view x = view y := by
  have : (a.map view)[c]? = (b.map view)[c]? := by rw [h]
  rw [List.getElem?_map, List.getElem?_map, hx] at this
  cases hb : b[c]? with
  | none => rw [hb] at this; cases this
  | some y =>
    rw [hb] at this
    simp only [Option.map_some, Option.some.injEq] at this
    exact ⟨y, rfl, this⟩

theorem view_same {x y : Conn K} (h : view x = view y) : x.key = y.key ∧ x.queue = y.queue ∧ x.wire = y.wire ∧
    x.taken = y.taken ∧ x.writer = y.writer ∧ x.supervised = y.supervised := by
  unfold view at h
  simp only [Conn.mk.injEq] at h
  exact ⟨h.1, h.2.1, h.2.2.1, h.2.2.2.1, h.2.2.2.2.1, h.2.2.2.2.2.2⟩

theorem at_view {a b : List (Conn K)} (h : a.map view = b.map view) (c : Nat) (k : K) (hx : At a c k) : At b c k := by
  obtain ⟨x, h1, h2⟩ := hx
  obtain ⟨y, h3, h4⟩ := view_get h c x h1
  exact ⟨y, h3, by rw [← (view_same h4).1]; exact h2⟩

theorem pcOk_mono {cfg : Cfg K} {a b : List (Conn K)} (h : ∀ c k, At a c k → At b c k) (t : Task K) (hp : PcOk cfg a t) :
    PcOk cfg b t := by
  obtain ⟨key, pc⟩ := t
  cases pc with
  | waiting k c f => exact ⟨hp.1, h _ _ hp.2⟩
  | connected c => exact h _ _ hp
  | sending c => exact h _ _ hp
  | done r =>
    cases r with
    | none => exact trivial
    | some c =>
      obtain ⟨k, h1, h2⟩ := hp
      exact ⟨k, h1, h _ _ h2⟩
  | _ => exact hp

theorem removeKey_view (s : State K) (k : K) : (s.removeKey k).conns.map view = s.conns.map view := by
  unfold State.removeKey
  split
  · rfl
  · unfold State.drop State.setConn
    simp only
    rw [List.ext_getElem?_iff]
    intro j
    rw [List.getElem?_map, List.getElem?_map, List.getElem?_modify]
    cases s.conns[j]? with
    | none => rfl
    | some x =>
      simp only [Option.map_eq_map, Option.map_some]
      split <;> rfl

theorem removeKeys_view : ∀ (ks : List K) (s : State K), (ks.foldl State.removeKey s).conns.map view = s.conns.map view
  | [], _ => rfl
  | k :: ks, s => by rw [List.foldl_cons, removeKeys_view ks, removeKey_view]

theorem removeKeys_get : ∀ (ks : List K) (s : State K) (k : K) (e : Entry),
    Tbl.get (ks.foldl State.removeKey s).map k = some e → Tbl.get s.map k = some e
  | [], _, _, _, h => h
  | k' :: ks, s, k, e, h => by
    rw [List.foldl_cons] at h
    have := removeKeys_get ks _ _ _ h
    rw [removeKey_map] at this
    by_cases hk : k = k'
    · subst hk
      rw [Tbl.get_remove_self] at this
      cases this
    · rwa [Tbl.get_remove_ne _ hk] at this

/-- Only aborts, and entries with connections as before. -/
theorem deliver_view {cfg : Cfg K} {s s' : State K} (h : Deliver cfg s) (hc : s'.conns.map view = s.conns.map view)
    (ht : s'.tasks = s.tasks) (he : s'.events = s.events)
    (hm : ∀ k e, Tbl.get s'.map k = some e → (∃ e', Tbl.get s.map k = some e' ∧ e'.conn = e.conn) ∨ At s.conns e.conn k) :
    Deliver cfg s' := by
  have hat := fun c k => at_view (a := s.conns) (b := s'.conns) hc.symm c k
  constructor
  · intro k e hg
    rcases hm k e hg with ⟨e', h1, h2⟩ | h1
    · have := h.entry k e' h1
      rw [h2] at this
      exact hat _ _ this
    · exact hat _ _ h1
  · intro i t hi
    rw [ht] at hi
    exact pcOk_mono hat t (h.pcs i t hi)
  · intro c x hx
    obtain ⟨y, h1, h2⟩ := view_get hc c x hx
    obtain ⟨e1, e2, e3, e4, e5, e6⟩ := view_same h2
    have := h.conn c y h1
    rw [ht]
    constructor
    · rw [e5, e4, e3, e2]; exact this.running
    · rw [e3, e4]; exact this.wire
    · rw [e4]; exact this.nodup
    · rw [e4]; exact this.taken
    · rw [e6, e5]; exact this.over
  · rw [he]; exact h.told
  · intro c b
    rw [he, h.events]
    constructor
    · rintro ⟨x, h1, h2, h3, h4⟩
      obtain ⟨y, h5, h6⟩ := view_get hc.symm c x h1
      obtain ⟨e1, e2, e3, e4, e5, e6⟩ := view_same h6
      exact ⟨y, h5, by rw [← e6]; exact h2, by rw [← e1]; exact h3, by rw [← e5]; exact h4⟩
    · rintro ⟨x, h1, h2, h3, h4⟩
      obtain ⟨y, h5, h6⟩ := view_get hc c x h1
      obtain ⟨e1, e2, e3, e4, e5, e6⟩ := view_same h6
      exact ⟨y, h5, by rw [← e6]; exact h2, by rw [← e1]; exact h3, by rw [← e5]; exact h4⟩

theorem deliver_removeKey {cfg : Cfg K} {s : State K} (h : Deliver cfg s) (k : K) : Deliver cfg (s.removeKey k) :=
  deliver_view h (removeKey_view s k) (removeKey_tasks s k) (removeKey_events s k) (fun k' e hg =>
    Or.inl ⟨e, removeKeys_get [k] s k' e hg, rfl⟩)

theorem deliver_cleanup {cfg : Cfg K} {s : State K} (h : Deliver cfg s) : Deliver cfg (cleanup cfg s) :=
  deliver_view h (removeKeys_view _ s) (removeKeys_tasks _ s) (removeKeys_events _ s) (fun k' e hg =>
    Or.inl ⟨e, removeKeys_get _ s k' e hg, rfl⟩)

theorem deliver_touch {cfg : Cfg K} {s : State K} (h : Deliver cfg s) (k : K) : Deliver cfg (s.touch k) :=
  deliver_view h rfl rfl rfl (fun k' e hg => by
    unfold State.touch at hg
    simp only at hg
    by_cases hk : k' = k
    · subst hk
      rw [Tbl.get_update_self] at hg
      cases hx : Tbl.get s.map k' with
      | none => rw [hx] at hg; cases hg
      | some e' =>
        rw [hx] at hg
        cases hg
        exact Or.inl ⟨e', rfl, rfl⟩
    · rw [Tbl.get_update_ne _ _ hk] at hg
      exact Or.inl ⟨e, hg, rfl⟩)

theorem deliver_insertKey {cfg : Cfg K} {s : State K} (h : Deliver cfg s) (k : K) (e : Entry) (hc : At s.conns e.conn k) :
    Deliver cfg (s.insertKey k e) :=
  deliver_view h (removeKey_view s k) (insertKey_tasks s k e) (insertKey_events s k e) (fun k' e' hg => by
    unfold State.insertKey at hg
    simp only at hg
    by_cases hk : k' = k
    · subst hk
      rw [Tbl.get_insert_self] at hg
      cases hg
      exact Or.inr hc
    · rw [Tbl.get_insert_ne _ _ hk] at hg
      exact Or.inl ⟨e', removeKeys_get [k] s k' e' hg, rfl⟩)

/-! ## Calls -/

theorem took_setPc (tasks : List (Task K)) (i : Nat) (t : Task K) (pc : Pc K) (ht : tasks[i]? = some t)
    (h1 : ∀ c, t.pc ≠ .done (some c)) (h2 : ∀ c, pc ≠ .done (some c)) (j c : Nat) :
    Took (tasks.modify i (fun t => { t with pc := pc })) j c ↔ Took tasks j c := by
  unfold Took
  constructor
  · rintro ⟨k, h⟩
    rw [get_modify_iff] at h
    obtain ⟨a, ha, hb⟩ := h
    by_cases hij : i = j
    · rw [if_pos hij] at hb
      cases hb
      exact absurd rfl (h2 c)
    · rw [if_neg hij] at hb
      subst hb
      exact ⟨k, ha⟩
  · rintro ⟨k, h⟩
    have hij : i ≠ j := by
      rintro rfl
      rw [ht] at h
      cases h
      exact h1 c rfl
    refine ⟨k, ?_⟩
    rw [get_modify_iff]
    exact ⟨_, h, by rw [if_neg hij]⟩

theorem deliver_setPc {cfg : Cfg K} {s : State K} {i : Nat} {t : Task K} (h : Deliver cfg s) (ht : s.tasks[i]? = some t) (pc : Pc K)
    (h1 : ∀ c, t.pc ≠ .done (some c)) (h2 : ∀ c, pc ≠ .done (some c)) (hp : PcOk cfg s.conns ⟨t.key, pc⟩) :
    Deliver cfg (s.setPc i pc) := by
  constructor
  · exact h.entry
  · intro j u hj
    simp only [State.setPc] at hj
    rw [get_modify_iff] at hj
    obtain ⟨a, ha, hb⟩ := hj
    by_cases hij : i = j
    · rw [if_pos hij] at hb
      subst hij
      rw [ht] at ha
      cases ha
      subst hb
      exact hp
    · rw [if_neg hij] at hb
      subst hb
      exact h.pcs j u ha
  · intro c x hx
    have := h.conn c x hx
    refine ⟨this.running, this.wire, this.nodup, fun j => ?_, this.over⟩
    rw [this.taken]
    exact (took_setPc s.tasks i t pc ht h1 h2 j c).symm
  · exact h.told
  · exact h.events

theorem at_setConn (conns : List (Conn K)) (c : Nat) (f : Conn K → Conn K) (hf : ∀ x, (f x).key = x.key) (c' : Nat) (k : K) :
    At (conns.modify c f) c' k ↔ At conns c' k := by
  unfold At
  constructor
  · rintro ⟨x, h1, h2⟩
    rw [get_modify_iff] at h1
    obtain ⟨a, ha, rfl⟩ := h1
    refine ⟨a, ha, ?_⟩
    rw [← h2]
    split
    · rw [hf]
    · rfl
  · rintro ⟨x, h1, h2⟩
    refine ⟨if c = c' then f x else x, get_modify f conns c c' x h1, ?_⟩
    split
    · rw [hf, h2]
    · exact h2

theorem deliver_push {cfg : Cfg K} {s : State K} {i c : Nat} {t : Task K} {x : Conn K} (h : Deliver cfg s)
    (ht : s.tasks[i]? = some t) (h1 : ∀ c, t.pc ≠ .done (some c)) (hx : s.conns[c]? = some x) (hr : x.writer = .running)
    (hn : Near cfg t.key x.key) : Deliver cfg (s.push c i) := by
  have hat : ∀ c' k, At (s.push c i).conns c' k ↔ At s.conns c' k := at_setConn s.conns c _ (fun _ => rfl)
  have hnot : ∀ c', ¬ Took s.tasks i c' := by
    rintro c' ⟨k, h⟩
    rw [ht] at h
    cases h
    exact h1 c' rfl
  have htook : ∀ j c', Took (s.push c i).tasks j c' ↔ Took s.tasks j c' ∨ (j = i ∧ c' = c) := by
    intro j c'
    unfold Took
    simp only [State.push, State.setPc, setConn_tasks, get_modify_iff]
    constructor
    · rintro ⟨k, a, ha, hb⟩
      by_cases hij : i = j
      · rw [if_pos hij] at hb
        cases hb
        exact Or.inr ⟨hij.symm, rfl⟩
      · rw [if_neg hij] at hb
        subst hb
        exact Or.inl ⟨k, ha⟩
    · rintro (⟨k, ha⟩ | ⟨rfl, rfl⟩)
      · refine ⟨k, _, ha, ?_⟩
        rw [if_neg]
        rintro rfl
        exact hnot c' ⟨k, ha⟩
      · exact ⟨t.key, t, ht, by rw [if_pos rfl]⟩
  constructor
  · intro k e hg
    rw [hat]
    exact h.entry k e hg
  · intro j u hj
    refine pcOk_mono (a := s.conns) (fun c' k ha => (hat c' k).mpr ha) u ?_
    simp only [State.push, State.setPc, setConn_tasks, get_modify_iff] at hj
    obtain ⟨a, ha, hb⟩ := hj
    by_cases hij : i = j
    · rw [if_pos hij] at hb
      subst hij
      rw [ht] at ha
      cases ha
      subst hb
      exact ⟨x.key, hn, x, hx, rfl⟩
    · rw [if_neg hij] at hb
      subst hb
      exact h.pcs j u ha
  · intro c' y hy
    simp only [State.push, setPc_conns, State.setConn, get_modify_iff] at hy
    obtain ⟨a, ha, hb⟩ := hy
    have hok := h.conn c' a ha
    by_cases hcc : c = c'
    · subst hcc
      rw [hx] at ha
      cases ha
      rw [if_pos rfl] at hb
      subst hb
      have hni : i ∉ x.taken := by
        rw [hok.taken]
        exact hnot c
      constructor
      · intro _
        simp only
        rw [hok.running hr, List.append_assoc]
      · exact hok.wire.trans (List.prefix_append _ _)
      · simp only
        rw [List.nodup_append]
        refine ⟨hok.nodup, by simp, ?_⟩
        intro a ha b hb
        rw [List.mem_singleton] at hb
        subst hb
        rintro rfl
        exact hni ha
      · intro j
        simp only
        rw [htook, List.mem_append, hok.taken, List.mem_singleton]
        simp
      · exact hok.over
    · rw [if_neg hcc] at hb
      subst hb
      refine ⟨hok.running, hok.wire, hok.nodup, fun j => ?_, hok.over⟩
      rw [htook, hok.taken]
      constructor
      · exact Or.inl
      · rintro (h | ⟨_, h⟩)
        · exact h
        · exact absurd h.symm hcc
  · exact h.told
  · intro c' b
    rw [push_events, h.events]
    simp only [State.push, setPc_conns, State.setConn, get_modify_iff]
    constructor
    · rintro ⟨y, h1, h2, h3, h4⟩
      refine ⟨_, ⟨y, h1, rfl⟩, ?_⟩
      split
      · exact ⟨h2, h3, h4⟩
      · exact ⟨h2, h3, h4⟩
    · rintro ⟨z, ⟨y, h1, rfl⟩, h2⟩
      refine ⟨y, h1, ?_⟩
      split at h2
      · exact h2
      · exact h2

theorem offer_deliver {cfg : Cfg K} {s w cl : State K} {i c : Nat} {t : Task K} {k : K} (h : Deliver cfg s)
    (ht : s.tasks[i]? = some t) (h1 : ∀ c, t.pc ≠ .done (some c)) (ha : At s.conns c k) (hn : Near cfg t.key k)
    (hw : Deliver cfg w) (hc : Deliver cfg cl) : Deliver cfg (s.offer i c w cl) := by
  unfold State.offer
  obtain ⟨x, hx, hk⟩ := ha
  rw [hx]
  simp only
  split
  · rename_i hr
    split
    · exact deliver_push h ht h1 hx hr (by rw [hk]; exact hn)
    · exact hw
  · exact hc

theorem taskStep_deliver {cfg : Cfg K} {s s' : State K} {i : Nat} {ok : Bool} {hint : Option K} (h : Deliver cfg s)
    (hs : taskStep cfg s i ok hint = some s') : Deliver cfg s' := by
  unfold taskStep at hs
  split at hs
  · cases hs
  · -- look
    rename_i key k first ht
    have hnear : Near cfg key k := h.pcs i _ ht
    split at hs
    · cases hs
    · split at hs
      · cases hs
        refine deliver_setPc h ht _ (by intro c hc; cases hc) ?_ ?_
        · intro c hc; cases first <;> cases hc
        · cases first <;> exact trivial
      · rename_i e he
        cases hs
        have hat := h.entry k e he
        have htch := deliver_touch h k
        refine offer_deliver (t := ⟨key, .look k first⟩) htch ht (by intro c hc; cases hc) hat hnear ?_ ?_
        · exact deliver_setPc htch ht _ (by intro c hc; cases hc) (by intro c hc; cases hc) ⟨hnear, hat⟩
        · exact deliver_setPc htch ht _ (by intro c hc; cases hc) (by intro c hc; cases hc) hnear
  · rename_i key k c first ht
    obtain ⟨hnear, hat⟩ : Near cfg key k ∧ At s.conns c k := h.pcs i _ ht
    cases hs
    refine offer_deliver (t := ⟨key, .waiting k c first⟩) h ht (by intro c hc; cases hc) hat hnear h ?_
    exact deliver_setPc h ht _ (by intro c hc; cases hc) (by intro c hc; cases hc) hnear
  · rename_i key k first ht
    split at hs
    · cases hs
    · cases hs
      refine deliver_setPc (deliver_removeKey h k) (by rw [removeKey_tasks]; exact ht) _ (by intro c hc; cases hc) ?_ ?_
      · intro c hc; cases first <;> cases hc
      · cases first <;> exact trivial
  · rename_i key ht
    split at hs
    · split at hs
      · rename_i k hk
        simp only [Bool.and_eq_true] at hk
        cases hs
        exact deliver_setPc h ht _ (by intro c hc; cases hc) (by intro c hc; cases hc) (Or.inr hk.1.2)
      · cases hs
    · split at hs
      · cases hs
      · cases hs
        exact deliver_setPc h ht _ (by intro c hc; cases hc) (by intro c hc; cases hc) trivial
  · rename_i key n ht
    split at hs
    · cases hs
      have h' : Deliver cfg { s with avail := s.avail - 1 } := ⟨h.entry, h.pcs, h.conn, h.told, h.events⟩
      exact deliver_setPc h' ht _ (by intro c hc; cases hc) (by intro c hc; cases hc) trivial
    · split at hs <;> cases hs <;>
        exact deliver_setPc h ht _ (by intro c hc; cases hc) (by intro c hc; cases hc) trivial
  · rename_i key ht
    split at hs
    · cases hs
    · cases hs
      exact deliver_setPc (deliver_cleanup h) (by unfold cleanup; rw [removeKeys_tasks]; exact ht) _
        (by intro c hc; cases hc) (by intro c hc; cases hc) trivial
  · rename_i key ht
    split at hs
    · cases hs
    · cases hs
      exact deliver_setPc h ht _ (by intro c hc; cases hc) (by intro c hc; cases hc) trivial
  · rename_i key ht
    cases hs
    exact deliver_setPc h ht _ (by intro c hc; cases hc) (by intro c hc; cases hc) trivial
  · rename_i key k ks ht
    split at hs
    · cases hs
    · cases hs
      exact deliver_setPc (deliver_removeKey h k) (by rw [removeKey_tasks]; exact ht) _ (by intro c hc; cases hc)
        (by intro c hc; cases hc) trivial
  · rename_i key ht
    split at hs
    · cases hs
      have hget : ∀ c' x, (s.conns ++ [({ key := key } : Conn K)])[c']? = some x ↔
          s.conns[c']? = some x ∨ (c' = s.conns.length ∧ x = { key := key }) := by
        intro c' x
        rw [List.getElem?_append]
        split
        · rename_i hl
          constructor
          · exact Or.inl
          · rintro (h | ⟨h, _⟩)
            · exact h
            · omega
        · rename_i hl
          constructor
          · intro hx
            refine Or.inr ?_
            cases hd : c' - s.conns.length with
            | zero =>
              rw [hd] at hx
              simp only [List.getElem?_cons_zero, Option.some.injEq] at hx
              exact ⟨by omega, hx.symm⟩
            | succ n =>
              rw [hd] at hx
              simp at hx
          · rintro (h | ⟨rfl, rfl⟩)
            · have := (List.getElem?_eq_some_iff.mp h).1
              omega
            · simp
      have hat : ∀ c' k, At s.conns c' k → At (s.conns ++ [({ key := key } : Conn K)]) c' k := by
        rintro c' k ⟨x, h1, h2⟩
        exact ⟨x, (hget c' x).mpr (Or.inl h1), h2⟩
      have h' : Deliver cfg { s with conns := s.conns ++ [({ key := key } : Conn K)] } := by
        constructor
        · intro k e hg
          exact hat _ _ (h.entry k e hg)
        · intro j t hj
          exact pcOk_mono hat t (h.pcs j t hj)
        · intro c x hx
          rcases (hget c x).mp hx with hx | ⟨rfl, rfl⟩
          · exact h.conn c x hx
          · refine ⟨fun _ => rfl, List.prefix_rfl, List.nodup_nil, ?_, by intro hc; cases hc⟩
            intro j
            constructor
            · intro hj; cases hj
            · rintro ⟨k, hk⟩
              obtain ⟨k', _, x, hx, _⟩ := h.pcs j _ hk
              have := (List.getElem?_eq_some_iff.mp hx).1
              omega
        · exact h.told
        · intro c b
          rw [h.events]
          constructor
          · rintro ⟨x, h1, h2⟩
            exact ⟨x, (hget c x).mpr (Or.inl h1), h2⟩
          · rintro ⟨x, h1, h2⟩
            rcases (hget c x).mp h1 with hx | ⟨rfl, rfl⟩
            · exact ⟨x, hx, h2⟩
            · cases h2.1
      refine deliver_setPc h' ht _ (by intro c hc; cases hc) (by intro c hc; cases hc) ?_
      exact ⟨{ key := key }, (hget _ _).mpr (Or.inr ⟨rfl, rfl⟩), rfl⟩
    · cases hs
      have h' : Deliver cfg { s with avail := s.avail + 1 } := ⟨h.entry, h.pcs, h.conn, h.told, h.events⟩
      exact deliver_setPc h' ht _ (by intro c hc; cases hc) (by intro c hc; cases hc) trivial
  · rename_i key c ht
    have hat : At s.conns c key := h.pcs i _ ht
    split at hs
    · cases hs
    · cases hs
      refine deliver_setPc (deliver_insertKey h key ⟨c, s.now⟩ hat) (by rw [insertKey_tasks]; exact ht) _
        (by intro c hc; cases hc) (by intro c hc; cases hc) ?_
      exact at_view (removeKey_view s key).symm _ _ hat
  · rename_i key c ht
    have hat : At s.conns c key := h.pcs i _ ht
    cases hs
    refine offer_deliver (t := ⟨key, .sending c⟩) h ht (by intro c hc; cases hc) hat (Or.inl rfl) h ?_
    exact deliver_setPc h ht _ (by intro c hc; cases hc) (by intro c hc; cases hc) trivial
  · rename_i key ht
    split at hs
    · cases hs
    · cases hs
      exact deliver_setPc (deliver_removeKey h key) (by rw [removeKey_tasks]; exact ht) _ (by intro c hc; cases hc)
        (by intro c hc; cases hc) trivial
  · cases hs

/-- One connection changes. -/
theorem deliver_setConn {cfg : Cfg K} {s : State K} {c : Nat} {x : Conn K} (f : Conn K → Conn K) (h : Deliver cfg s)
    (hx : s.conns[c]? = some x) (hk : ∀ y, (f y).key = y.key) (ho : ConnOk s.tasks c (f x))
    (hs : (f x).supervised = x.supervised) (hn : x.supervised = true → (f x).writer = x.writer) : Deliver cfg (s.setConn c f) := by
  have hat := at_setConn s.conns c f hk
  constructor
  · intro k e hg
    exact (hat _ _).mpr (h.entry k e hg)
  · intro j t hj
    exact pcOk_mono (fun c' k ha => (hat c' k).mpr ha) t (h.pcs j t hj)
  · intro c' y hy
    simp only [State.setConn, get_modify_iff] at hy
    obtain ⟨a, ha, hb⟩ := hy
    by_cases hcc : c = c'
    · subst hcc
      rw [hx] at ha
      cases ha
      rw [if_pos rfl] at hb
      subst hb
      exact ho
    · rw [if_neg hcc] at hb
      subst hb
      exact h.conn c' y ha
  · exact h.told
  · intro c' b
    rw [setConn_events, h.events]
    simp only [State.setConn, get_modify_iff]
    constructor
    · rintro ⟨y, h1, h2, h3, h4⟩
      refine ⟨_, ⟨y, h1, rfl⟩, ?_⟩
      split
      · rename_i hcc
        subst hcc
        rw [hx] at h1
        cases h1
        rw [hs, hk, hn h2]
        exact ⟨h2, h3, h4⟩
      · exact ⟨h2, h3, h4⟩
    · rintro ⟨z, ⟨y, h1, rfl⟩, h2⟩
      refine ⟨y, h1, ?_⟩
      split at h2
      · rename_i hcc
        subst hcc
        rw [hx] at h1
        cases h1
        rw [hs, hk] at h2
        rw [hn h2.1] at h2
        exact h2
      · exact h2

theorem step_deliver {cfg : Cfg K} {s s' : State K} {a : Act K} (h : Deliver cfg s) (hs : step cfg s a = some s') :
    Deliver cfg s' := by
  cases a with
  | call k =>
    cases hs
    have hget : ∀ (j : Nat) (t : Task K), (s.tasks ++ [(⟨k, .look k true⟩ : Task K)])[j]? = some t →
        s.tasks[j]? = some t ∨ t = ⟨k, .look k true⟩ := by
      intro j t hj
      rw [List.getElem?_append] at hj
      split at hj
      · exact Or.inl hj
      · refine Or.inr ?_
        have := List.mem_of_getElem? hj
        simpa using this
    have htook : ∀ i c, Took (s.tasks ++ [(⟨k, .look k true⟩ : Task K)]) i c ↔ Took s.tasks i c := by
      intro i c
      constructor
      · rintro ⟨k', hk⟩
        rcases hget i _ hk with hk | hk
        · exact ⟨k', hk⟩
        · cases hk
      · rintro ⟨k', hk⟩
        refine ⟨k', ?_⟩
        rw [List.getElem?_append_left (List.getElem?_eq_some_iff.mp hk).1]
        exact hk
    constructor
    · exact h.entry
    · intro j t hj
      rcases hget j t hj with hj | rfl
      · exact h.pcs j t hj
      · exact Or.inl rfl
    · intro c x hx
      have := h.conn c x hx
      exact ⟨this.running, this.wire, this.nodup, fun i => by rw [this.taken]; exact (htook i c).symm, this.over⟩
    · exact h.told
    · exact h.events
  | task i ok hint => exact taskStep_deliver h hs
  | write c =>
    simp only [step] at hs
    split at hs
    · cases hs
    · rename_i x hx
      split at hs
      · rename_i m q hr hq
        cases hs
        have ho := h.conn c x hx
        refine deliver_setConn _ h hx (fun _ => rfl) ?_ rfl (fun _ => rfl)
        have e := ho.running hr
        rw [hq] at e
        constructor
        · intro _
          simp only
          rw [e]
          simp
        · simp only
          rw [e]
          exact ⟨q, by simp⟩
        · exact ho.nodup
        · exact ho.taken
        · exact ho.over
      · cases hs
  | exit c =>
    simp only [step] at hs
    split at hs
    · cases hs
    · rename_i x hx
      split at hs
      · rename_i hr
        cases hs
        have ho := h.conn c x hx
        refine deliver_setConn _ h hx (fun _ => rfl) ?_ rfl (fun hh => absurd hr (ho.over hh))
        exact ⟨(fun hc => (by cases hc)), ho.wire, ho.nodup, ho.taken, (fun _ hc => (by cases hc))⟩
      · cases hs
  | cancel c =>
    simp only [step] at hs
    split at hs
    · cases hs
    · rename_i x hx
      split at hs
      · rename_i hr
        cases hs
        have ho := h.conn c x hx
        refine deliver_setConn _ h hx (fun _ => rfl) ?_ rfl (fun hh => absurd hr.1 (ho.over hh))
        exact ⟨(fun hc => (by cases hc)), ho.wire, ho.nodup, ho.taken, (fun _ hc => (by cases hc))⟩
      · cases hs
  | supervise c =>
    simp only [step] at hs
    split at hs
    · cases hs
    · rename_i x hx
      split at hs
      · cases hs
      · rename_i hg
        simp only [not_or] at hg
        obtain ⟨hg1, hg2, _⟩ := hg
        cases hs
        have hr := deliver_removeKey h x.key
        obtain ⟨y, hy, hv⟩ := view_get (removeKey_view s x.key).symm c x hx
        obtain ⟨e1, e2, e3, e4, e5, e6⟩ := view_same hv
        have hyk := hr.conn c y hy
        have hat := at_setConn (s.removeKey x.key).conns c (fun y => { y with supervised := true }) (fun _ => rfl)
        have hev : ∀ b, (c, b) ∉ s.events := by
          intro b hb
          rw [h.events] at hb
          obtain ⟨z, h1, h2, _⟩ := hb
          rw [hx] at h1
          cases h1
          exact hg2 h2
        unfold supervise
        constructor
        · intro k e hk
          exact (hat _ _).mpr (hr.entry k e hk)
        · intro j t hj
          exact pcOk_mono (fun c' k ha => (hat c' k).mpr ha) t (hr.pcs j t hj)
        · intro c' z hz
          simp only [State.setConn, get_modify_iff] at hz
          obtain ⟨a, ha, hb⟩ := hz
          have hok := hr.conn c' a ha
          by_cases hcc : c = c'
          · subst hcc
            rw [hy] at ha
            cases ha
            rw [if_pos rfl] at hb
            subst hb
            exact ⟨hok.running, hok.wire, hok.nodup, hok.taken, fun _ => by simp only; rw [← e5]; exact hg1⟩
          · rw [if_neg hcc] at hb
            subst hb
            exact hok
        · simp only
          split
          · rw [List.map_append, List.nodup_append]
            refine ⟨h.told, by simp, ?_⟩
            intro a ha b hb
            simp only [List.map_cons, List.map_nil, List.mem_singleton] at hb
            subst hb
            rintro rfl
            obtain ⟨p, hp, rfl⟩ := List.mem_map.mp ha
            exact hev p.2 hp
          · exact h.told
        · intro c' b
          have hmem : (c', b) ∈ (if cfg.reports x.key then s.events ++ [(c, x.writer == .cancelled)] else s.events) ↔
              (c', b) ∈ s.events ∨ (cfg.reports x.key = true ∧ c' = c ∧ (b = true ↔ x.writer = .cancelled)) := by
            split
            · rename_i hrep
              rw [List.mem_append, List.mem_singleton, Prod.mk.injEq]
              constructor
              · rintro (h | ⟨h1, h2⟩)
                · exact Or.inl h
                · exact Or.inr ⟨hrep, h1, by rw [h2]; simp⟩
              · rintro (h | ⟨_, h1, h2⟩)
                · exact Or.inl h
                · refine Or.inr ⟨h1, ?_⟩
                  cases b with
                  | true => simp [h2.mp rfl]
                  | false =>
                    cases hw : (x.writer == .cancelled) with
                    | false => rfl
                    | true =>
                      rw [beq_iff_eq] at hw
                      exact absurd (h2.mpr hw) (by decide)
            · rename_i hrep
              constructor
              · exact Or.inl
              · rintro (h | ⟨h1, _⟩)
                · exact h
                · exact absurd h1 hrep
          simp only [hmem]
          have hre := hr.events c' b
          rw [removeKey_events] at hre
          rw [hre]
          simp only [State.setConn, get_modify_iff]
          constructor
          · rintro (⟨z, h1, h2, h3, h4⟩ | ⟨h1, rfl, h3⟩)
            · refine ⟨_, ⟨z, h1, rfl⟩, ?_⟩
              split
              · exact ⟨rfl, h3, h4⟩
              · exact ⟨h2, h3, h4⟩
            · refine ⟨_, ⟨y, hy, rfl⟩, ?_⟩
              rw [if_pos rfl]
              refine ⟨rfl, ?_, ?_⟩
              · simp only
                rw [← e1]; exact h1
              · simp only
                rw [← e5]; exact h3
          · rintro ⟨_, ⟨z, h1, rfl⟩, h2⟩
            by_cases hcc : c = c'
            · subst hcc
              rw [hy] at h1
              cases h1
              rw [if_pos rfl] at h2
              simp only at h2
              rw [← e1, ← e5] at h2
              exact Or.inr ⟨h2.2.1, rfl, h2.2.2⟩
            · rw [if_neg hcc] at h2
              exact Or.inl ⟨z, h1, h2⟩
  | cleanup =>
    simp only [step] at hs
    split at hs
    · cases hs
    · cases hs
      exact deliver_cleanup h
  | tick d =>
    cases hs
    exact ⟨h.entry, h.pcs, h.conn, h.told, h.events⟩

theorem reach_deliver {cfg : Cfg K} {s : State K} (h : Reach cfg s) : Deliver cfg s := by
  obtain ⟨as, h⟩ := h
  refine run_inv (fun s a s' => step_deliver) as _ _ ?_ h
  constructor
  · intro k e hg; cases hg
  · intro i t hi; simp [init] at hi
  · intro c x hx; simp [init] at hx
  · exact List.nodup_nil
  · intro c b
    simp [init]

end Siphon.Pool
