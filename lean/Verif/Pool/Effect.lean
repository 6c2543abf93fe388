import Verif.Pool.Owned
import Verif.Pool.Spec
set_option linter.unusedSimpArgs false
set_option linter.unusedSectionVars false
/-!
# Lemmas: what a step does to a connection and to an entry
-/
namespace Siphon.Pool
variable {K : Type} [DecidableEq K]

structure Grown (x x' : Conn K) : Prop where
  key : x'.key = x.key
  writer : x'.writer = x.writer
  wire : x'.wire = x.wire
  supervised : x'.supervised = x.supervised
  queue : x.queue <+: x'.queue
  taken : x.taken <+: x'.taken
  aborted : x.aborted = true → x'.aborted = true

theorem Grown.rfl (x : Conn K) : Grown x x := ⟨by rfl, by rfl, by rfl, by rfl, List.prefix_rfl, List.prefix_rfl, id⟩

theorem Grown.trans {x y z : Conn K} (h : Grown x y) (g : Grown y z) : Grown x z :=
  ⟨by rw [g.key, h.key], by rw [g.writer, h.writer], by rw [g.wire, h.wire], by rw [g.supervised, h.supervised],
    h.queue.trans g.queue, h.taken.trans g.taken, fun ha => g.aborted (h.aborted ha)⟩

/-- The connection is still there, and is told to stop only if it is the entry of one of these keys. -/
def Kept (s s' : State K) (c : Nat) (x : Conn K) (hit : K → Prop) : Prop :=
  ∃ x', s'.conns[c]? = some x' ∧ Grown x x' ∧ (x'.aborted = x.aborted ∨ ∃ k e, Tbl.get s.map k = some e ∧ e.conn = c ∧ hit k)

theorem kept_same {s s' : State K} {c : Nat} {x : Conn K} {hit : K → Prop} (hx : s.conns[c]? = some x) (h : s'.conns = s.conns) :
    Kept s s' c x hit := ⟨x, by rw [h]; exact hx, Grown.rfl x, Or.inl rfl⟩

theorem removeKey_get (s : State K) (k k' : K) (e : Entry) (h : Tbl.get (s.removeKey k).map k' = some e) :
    Tbl.get s.map k' = some e := removeKeys_get [k] s k' e h

theorem kept_removeKey (s : State K) (k : K) {c : Nat} {x : Conn K} (hx : s.conns[c]? = some x) :
    Kept s (s.removeKey k) c x (fun k' => k' = k) := by
  unfold State.removeKey
  split
  · exact kept_same hx rfl
  · rename_i e he
    unfold State.drop State.setConn
    refine ⟨_, get_modify _ s.conns e.conn c x hx, ?_, ?_⟩
    · split
      · exact ⟨rfl, rfl, rfl, rfl, List.prefix_rfl, List.prefix_rfl, fun _ => rfl⟩
      · exact Grown.rfl x
    · by_cases hc : e.conn = c
      · exact Or.inr ⟨k, e, he, hc, rfl⟩
      · rw [if_neg hc]
        exact Or.inl rfl

theorem kept_removeKeys : ∀ (ks : List K) (s : State K) {c : Nat} {x : Conn K}, s.conns[c]? = some x →
    Kept s (ks.foldl State.removeKey s) c x (fun k' => k' ∈ ks)
  | [], s, c, x, hx => kept_same hx rfl
  | k :: ks, s, c, x, hx => by
    rw [List.foldl_cons]
    obtain ⟨y, hy, hg, ha⟩ := kept_removeKey s k hx
    obtain ⟨z, hz, hg', ha'⟩ := kept_removeKeys ks (s.removeKey k) hy
    refine ⟨z, hz, hg.trans hg', ?_⟩
    rcases ha with ha | ⟨k', e, h1, h2, h3⟩
    · rcases ha' with ha' | ⟨k', e, h1, h2, h3⟩
      · exact Or.inl (by rw [ha', ha])
      · exact Or.inr ⟨k', e, removeKey_get s k k' e h1, h2, List.mem_cons_of_mem _ h3⟩
    · exact Or.inr ⟨k', e, h1, h2, by rw [h3]; exact List.mem_cons_self⟩

theorem kept_push (s : State K) (i c' : Nat) {c : Nat} {x : Conn K} {hit : K → Prop} (hx : s.conns[c]? = some x) :
    Kept s (s.push c' i) c x hit := by
  unfold State.push State.setPc State.setConn
  refine ⟨_, get_modify _ s.conns c' c x hx, ?_, Or.inl ?_⟩
  · split
    · exact ⟨rfl, rfl, rfl, rfl, List.prefix_append _ _, List.prefix_append _ _, id⟩
    · exact Grown.rfl x
  · split <;> rfl

theorem kept_offer {s w cl : State K} {i c' c : Nat} {x : Conn K} {hit : K → Prop} (hx : s.conns[c]? = some x)
    (hw : w.conns = s.conns) (hc : cl.conns = s.conns) : Kept s (s.offer i c' w cl) c x hit := by
  unfold State.offer
  split
  · exact kept_same hx hc
  · split
    · split
      · exact kept_push s i c' hx
      · exact kept_same hx hw
    · exact kept_same hx hc

theorem kept_mono {s s' : State K} {c : Nat} {x : Conn K} {p q : K → Prop} (h : Kept s s' c x p)
    (hpq : ∀ k e, Tbl.get s.map k = some e → p k → q k) : Kept s s' c x q := by
  obtain ⟨x', h1, h2, h3⟩ := h
  refine ⟨x', h1, h2, ?_⟩
  rcases h3 with h3 | ⟨k, e, h4, h5, h6⟩
  · exact Or.inl h3
  · exact Or.inr ⟨k, e, h4, h5, hpq k e h4 h6⟩

theorem mem_idle {cfg : Cfg K} {s : State K} (hn : (Tbl.keys s.map).Nodup) (k : K) :
    k ∈ (s.map.filter (fun p => isIdle cfg s p.2)).map (·.1) ↔ ∃ e, Tbl.get s.map k = some e ∧ Idle cfg s e := by
  simp only [List.mem_map, List.mem_filter]
  constructor
  · rintro ⟨⟨k', e⟩, ⟨h1, h2⟩, rfl⟩
    refine ⟨e, Tbl.get_of_mem _ _ _ hn h1, ?_⟩
    simp only [isIdle, gt_iff_lt, decide_eq_true_eq] at h2
    unfold Idle
    omega
  · rintro ⟨e, h1, h2⟩
    refine ⟨(k, e), ⟨Tbl.mem_of_get _ _ _ h1, ?_⟩, rfl⟩
    unfold Idle at h2
    simp only [isIdle, gt_iff_lt, decide_eq_true_eq]
    omega

/-- Steps of calls. -/
theorem taskStep_kept {cfg : Cfg K} {s s' : State K} {i : Nat} {ok : Bool} {hint : Option K} {c : Nat} {x : Conn K}
    (hn : (Tbl.keys s.map).Nodup) (hx : s.conns[c]? = some x) (hs : taskStep cfg s i ok hint = some s') :
    Kept s s' c x (fun k => Cause cfg s (.task i ok hint) k ∧ free cfg s k = true) := by
  unfold taskStep at hs
  split at hs
  · cases hs
  · rename_i key k first ht
    split at hs
    · cases hs
    · split at hs
      · cases hs
        exact kept_same hx rfl
      · rename_i e he
        cases hs
        have : Kept (s.touch k) (((s.touch k).offer i e.conn ((s.touch k).setPc i (.waiting k e.conn first))
          ((s.touch k).setPc i (.failed k first)))) c x (fun _ => False) := kept_offer hx rfl rfl
        obtain ⟨x', h1, h2, h3⟩ := this
        refine ⟨x', h1, h2, Or.inl ?_⟩
        rcases h3 with h3 | ⟨_, _, _, _, h3⟩
        · exact h3
        · exact h3.elim
  · cases hs
    exact kept_offer hx rfl rfl
  · rename_i key k first ht
    split at hs
    · cases hs
    · rename_i hf
      cases hs
      refine kept_mono (kept_removeKey s k hx) ?_
      rintro k' e _ rfl
      exact ⟨.failed ht, by simpa using hf⟩
  · split at hs
    · split at hs
      · cases hs
        exact kept_same hx rfl
      · cases hs
    · split at hs
      · cases hs
      · cases hs
        exact kept_same hx rfl
  · split at hs
    · cases hs
      exact kept_same hx rfl
    · split at hs <;> cases hs <;> exact kept_same hx rfl
  · rename_i key ht
    split at hs
    · cases hs
    · rename_i hf
      cases hs
      refine kept_mono (kept_removeKeys _ s hx) ?_
      intro k e _ hk
      obtain ⟨e, h1, h2⟩ := (mem_idle hn k).mp hk
      refine ⟨.idleSlot h1 h2 ht, ?_⟩
      simp only [allFree, Bool.not_not, Bool.not_eq_true, List.any_eq_false] at hf
      simp only [free, Bool.not_eq_true', List.any_eq_false]
      intro t htm
      have := hf t htm
      obtain ⟨key, pc⟩ := t
      cases pc <;> simp_all [holdsAny, holds]
  · split at hs
    · cases hs
    · cases hs
      exact kept_same hx rfl
  · cases hs
    exact kept_same hx rfl
  · rename_i key k ks ht
    split at hs
    · cases hs
    · rename_i hf
      cases hs
      refine kept_mono (kept_removeKey s k hx) ?_
      rintro k' e _ rfl
      exact ⟨.evicted ht, by simpa using hf⟩
  · split at hs
    · cases hs
      refine ⟨x, ?_, Grown.rfl x, Or.inl rfl⟩
      rw [setPc_conns]
      simp only
      rw [List.getElem?_append_left (List.getElem?_eq_some_iff.mp hx).1]
      exact hx
    · cases hs
      exact kept_same hx rfl
  · rename_i key c' ht
    split at hs
    · cases hs
    · rename_i hf
      cases hs
      have := kept_removeKey s key hx
      refine kept_mono (q := fun k => Cause cfg s (.task i ok hint) k ∧ free cfg s k = true) this ?_
      rintro k' e _ rfl
      exact ⟨.replaced ht, by simpa using hf⟩
  · cases hs
    exact kept_offer hx rfl rfl
  · rename_i key ht
    split at hs
    · cases hs
    · rename_i hf
      cases hs
      refine kept_mono (kept_removeKey s key hx) ?_
      rintro k' e _ rfl
      exact ⟨.closed ht, by simpa using hf⟩
  · cases hs

theorem allFree_free {cfg : Cfg K} {s : State K} (hf : allFree s = true) (k : K) : free cfg s k = true := by
  simp only [allFree, Bool.not_eq_true', List.any_eq_false] at hf
  simp only [free, Bool.not_eq_true', List.any_eq_false]
  intro t htm
  have := hf t htm
  obtain ⟨key, pc⟩ := t
  cases pc <;> simp_all [holdsAny, holds]

/-- What any step does to a connection. -/
structure Effect (cfg : Cfg K) (s : State K) (a : Act K) (c : Nat) (x x' : Conn K) : Prop where
  key : x'.key = x.key
  taken : x.taken <+: x'.taken
  wire : x.wire <+: x'.wire
  queue : a ≠ .write c → x.queue <+: x'.queue
  writer : x'.writer = x.writer ∨ x.writer = .running ∧
    (a = .exit c ∧ x'.writer = .exited ∨ a = .cancel c ∧ x.aborted = true ∧ x'.writer = .cancelled)
  supervised : x'.supervised = x.supervised ∨ x.writer ≠ .running
  aborted : x'.aborted = x.aborted ∨ ∃ k e, Tbl.get s.map k = some e ∧ e.conn = c ∧ Cause cfg s a k ∧ free cfg s k = true
  mono : x.aborted = true → x'.aborted = true

theorem effect_of_kept {cfg : Cfg K} {s s' : State K} {a : Act K} {c : Nat} {x : Conn K}
    (h : Kept s s' c x (fun k => Cause cfg s a k ∧ free cfg s k = true)) :
    ∃ x', s'.conns[c]? = some x' ∧ Effect cfg s a c x x' := by
  obtain ⟨x', h1, h2, h3⟩ := h
  exact ⟨x', h1, h2.key, h2.taken, by rw [h2.wire]; exact List.prefix_rfl, fun _ => h2.queue, Or.inl h2.writer, Or.inl h2.supervised, h3,
    h2.aborted⟩

theorem effect_rfl (cfg : Cfg K) (s : State K) (a : Act K) (c : Nat) (x : Conn K) : Effect cfg s a c x x :=
  ⟨rfl, List.prefix_rfl, List.prefix_rfl, fun _ => List.prefix_rfl, Or.inl rfl, Or.inl rfl, Or.inl rfl, id⟩

theorem step_effect {cfg : Cfg K} {s s' : State K} {a : Act K} {c : Nat} {x : Conn K}
    (hn : (Tbl.keys s.map).Nodup) (hx : s.conns[c]? = some x) (hs : step cfg s a = some s') :
    ∃ x', s'.conns[c]? = some x' ∧ Effect cfg s a c x x' := by
  cases a with
  | call k =>
    cases hs
    exact ⟨x, hx, effect_rfl ..⟩
  | task i ok hint => exact effect_of_kept (taskStep_kept hn hx hs)
  | write c' =>
    simp only [step] at hs
    split at hs
    · cases hs
    · rename_i y hy
      split at hs
      · rename_i m q hr hq
        cases hs
        refine ⟨_, get_modify _ s.conns c' c x hx, ?_⟩
        split
        · rename_i hc
          subst hc
          exact ⟨rfl, List.prefix_rfl, List.prefix_append _ _, fun h => absurd rfl h, Or.inl rfl, Or.inl rfl, Or.inl rfl, id⟩
        · exact effect_rfl ..
      · cases hs
  | exit c' =>
    simp only [step] at hs
    split at hs
    · cases hs
    · rename_i y hy
      split at hs
      · rename_i hr
        cases hs
        refine ⟨_, get_modify _ s.conns c' c x hx, ?_⟩
        split
        · rename_i hc
          subst hc
          rw [hx] at hy
          cases hy
          exact ⟨rfl, List.prefix_rfl, List.prefix_rfl, fun _ => List.prefix_rfl, Or.inr ⟨hr, Or.inl ⟨rfl, rfl⟩⟩, Or.inl rfl, Or.inl rfl, id⟩
        · exact effect_rfl ..
      · cases hs
  | cancel c' =>
    simp only [step] at hs
    split at hs
    · cases hs
    · rename_i y hy
      split at hs
      · rename_i hr
        cases hs
        refine ⟨_, get_modify _ s.conns c' c x hx, ?_⟩
        split
        · rename_i hc
          subst hc
          rw [hx] at hy
          cases hy
          exact ⟨rfl, List.prefix_rfl, List.prefix_rfl, fun _ => List.prefix_rfl, Or.inr ⟨hr.1, Or.inr ⟨rfl, hr.2, rfl⟩⟩, Or.inl rfl, Or.inl rfl, id⟩
        · exact effect_rfl ..
      · cases hs
  | supervise c' =>
    simp only [step] at hs
    split at hs
    · cases hs
    · rename_i y hy
      split at hs
      · cases hs
      · rename_i hg
        simp only [not_or] at hg
        obtain ⟨hg1, hg2, hg3⟩ := hg
        cases hs
        obtain ⟨x', h1, h2, h3⟩ := kept_removeKey s y.key hx
        have hcause : ∀ k e, Tbl.get s.map k = some e → k = y.key → Cause cfg s (.supervise c') k ∧ free cfg s k = true := by
          rintro k e _ rfl
          exact ⟨.ended hy rfl hg1, by simpa using hg3⟩
        unfold supervise
        refine ⟨_, get_modify _ (s.removeKey y.key).conns c' c x' h1, ?_⟩
        have ha : x'.aborted = x.aborted ∨ ∃ k e, Tbl.get s.map k = some e ∧ e.conn = c ∧ Cause cfg s (.supervise c') k ∧ free cfg s k = true := by
          rcases h3 with h3 | ⟨k, e, h4, h5, h6⟩
          · exact Or.inl h3
          · exact Or.inr ⟨k, e, h4, h5, hcause k e h4 h6⟩
        split
        · rename_i hc
          subst hc
          rw [hx] at hy
          cases hy
          exact ⟨h2.key, h2.taken, by rw [← h2.wire]; exact List.prefix_rfl, fun _ => h2.queue, Or.inl h2.writer, Or.inr hg1, ha, h2.aborted⟩
        · exact ⟨h2.key, h2.taken, by rw [← h2.wire]; exact List.prefix_rfl, fun _ => h2.queue, Or.inl h2.writer, Or.inl h2.supervised, ha, h2.aborted⟩
  | cleanup =>
    simp only [step] at hs
    split at hs
    · cases hs
    · rename_i hf
      cases hs
      apply effect_of_kept
      refine kept_mono (kept_removeKeys _ s hx) ?_
      intro k e _ hk
      obtain ⟨e, h1, h2⟩ := (mem_idle hn k).mp hk
      exact ⟨.idle h1 h2, allFree_free (by simpa using hf) k⟩
  | tick d =>
    cases hs
    exact ⟨x, hx, effect_rfl ..⟩

/-! ## Entries -/

/-- The entry stays with its connection, unless the key is one of these. -/
def Stays (s s' : State K) (k : K) (e : Entry) (hit : Prop) : Prop :=
  (∃ e', Tbl.get s'.map k = some e' ∧ e'.conn = e.conn) ∨ hit

theorem stays_removeKey (s : State K) (k k' : K) (e : Entry) (h : Tbl.get s.map k = some e) :
    Stays s (s.removeKey k') k e (k = k') := by
  by_cases hk : k = k'
  · exact Or.inr hk
  · refine Or.inl ⟨e, ?_, rfl⟩
    rw [removeKey_map, Tbl.get_remove_ne _ hk]
    exact h

theorem stays_removeKeys : ∀ (ks : List K) (s : State K) (k : K) (e : Entry), Tbl.get s.map k = some e →
    (Tbl.get (ks.foldl State.removeKey s).map k = some e ∧ k ∉ ks) ∨ (Tbl.get (ks.foldl State.removeKey s).map k = none ∧ k ∈ ks)
  | [], s, k, e, h => Or.inl ⟨h, by simp⟩
  | k' :: ks, s, k, e, h => by
    rw [List.foldl_cons]
    by_cases hk : k = k'
    · refine Or.inr ⟨?_, by rw [hk]; exact List.mem_cons_self⟩
      cases hg : Tbl.get (ks.foldl State.removeKey (s.removeKey k')).map k with
      | none => rfl
      | some e' =>
        have := removeKeys_get ks _ k e' hg
        rw [removeKey_map, hk, Tbl.get_remove_self] at this
        cases this
    · rcases stays_removeKeys ks (s.removeKey k') k e (by rw [removeKey_map, Tbl.get_remove_ne _ hk]; exact h) with h | h
      · exact Or.inl ⟨h.1, by simp [hk, h.2]⟩
      · exact Or.inr ⟨h.1, List.mem_cons_of_mem _ h.2⟩

theorem stays_touch (s : State K) (k k' : K) (e : Entry) (h : Tbl.get s.map k = some e) :
    ∃ e', Tbl.get (s.touch k').map k = some e' ∧ e'.conn = e.conn := by
  unfold State.touch
  simp only
  by_cases hk : k = k'
  · subst hk
    rw [Tbl.get_update_self, h]
    exact ⟨_, rfl, rfl⟩
  · rw [Tbl.get_update_ne _ _ hk]
    exact ⟨e, h, rfl⟩

theorem offer_map {s w cl : State K} {i c : Nat} (hw : w.map = s.map) (hc : cl.map = s.map) : (s.offer i c w cl).map = s.map := by
  unfold State.offer
  split
  · exact hc
  · split
    · split
      · rfl
      · exact hw
    · exact hc

theorem taskStep_stays {cfg : Cfg K} {s s' : State K} {i : Nat} {ok : Bool} {hint : Option K} {k : K} {e : Entry}
    (hn : (Tbl.keys s.map).Nodup) (he : Tbl.get s.map k = some e) (hs : taskStep cfg s i ok hint = some s') :
    Stays s s' k e (Cause cfg s (.task i ok hint) k ∧ free cfg s k = true) := by
  have same : ∀ {s' : State K}, s'.map = s.map → Stays s s' k e (Cause cfg s (.task i ok hint) k ∧ free cfg s k = true) :=
    fun h => Or.inl ⟨e, by rw [h]; exact he, rfl⟩
  have rem : ∀ {k' : K} {s' : State K}, s'.map = (s.removeKey k').map → (k = k' → Cause cfg s (.task i ok hint) k ∧ free cfg s k = true) →
      Stays s s' k e (Cause cfg s (.task i ok hint) k ∧ free cfg s k = true) := by
    intro k' s' h hc
    rcases stays_removeKey s k k' e he with h' | h'
    · exact Or.inl (by rw [h]; exact h')
    · exact Or.inr (hc h')
  unfold taskStep at hs
  split at hs
  · cases hs
  · split at hs
    · cases hs
    · split at hs
      · cases hs
        exact same rfl
      · cases hs
        left
        rw [offer_map (s := s.touch _) (by rfl) (by rfl)]
        exact stays_touch s k _ e he
  · cases hs
    exact same (offer_map rfl rfl)
  · rename_i key k' first ht
    split at hs
    · cases hs
    · rename_i hf
      cases hs
      exact rem rfl (by rintro rfl; exact ⟨.failed ht, by simpa using hf⟩)
  · split at hs
    · split at hs
      · cases hs
        exact same rfl
      · cases hs
    · split at hs
      · cases hs
      · cases hs
        exact same rfl
  · split at hs
    · cases hs
      exact same rfl
    · split at hs <;> cases hs <;> exact same rfl
  · rename_i key ht
    split at hs
    · cases hs
    · rename_i hf
      cases hs
      rcases stays_removeKeys _ s k e he with h | h
      · exact Or.inl ⟨e, h.1, rfl⟩
      · obtain ⟨e, h1, h2⟩ := (mem_idle hn k).mp h.2
        exact Or.inr ⟨.idleSlot h1 h2 ht, allFree_free (by simpa using hf) k⟩
  · split at hs
    · cases hs
    · cases hs
      exact same rfl
  · cases hs
    exact same rfl
  · rename_i key k' ks ht
    split at hs
    · cases hs
    · rename_i hf
      cases hs
      exact rem rfl (by rintro rfl; exact ⟨.evicted ht, by simpa using hf⟩)
  · split at hs <;> cases hs <;> exact same rfl
  · rename_i key c' ht
    split at hs
    · cases hs
    · rename_i hf
      cases hs
      by_cases hk : k = key
      · subst hk
        exact Or.inr ⟨.replaced ht, by simpa using hf⟩
      · left
        refine ⟨e, ?_, rfl⟩
        unfold State.insertKey
        simp only [setPc_map]
        rw [Tbl.get_insert_ne _ _ hk, removeKey_map, Tbl.get_remove_ne _ hk]
        exact he
  · cases hs
    exact same (offer_map rfl rfl)
  · rename_i key ht
    split at hs
    · cases hs
    · rename_i hf
      cases hs
      exact rem rfl (by rintro rfl; exact ⟨.closed ht, by simpa using hf⟩)
  · cases hs

theorem step_stays {cfg : Cfg K} {s s' : State K} {a : Act K} {k : K} {e : Entry}
    (hn : (Tbl.keys s.map).Nodup) (he : Tbl.get s.map k = some e) (hs : step cfg s a = some s') :
    Stays s s' k e (Cause cfg s a k ∧ free cfg s k = true) := by
  have same : ∀ {s' : State K}, s'.map = s.map → Stays s s' k e (Cause cfg s a k ∧ free cfg s k = true) :=
    fun h => Or.inl ⟨e, by rw [h]; exact he, rfl⟩
  cases a with
  | call k =>
    cases hs
    exact same rfl
  | task i ok hint => exact taskStep_stays hn he hs
  | write c' =>
    simp only [step] at hs
    split at hs
    · cases hs
    · split at hs
      · cases hs
        exact same rfl
      · cases hs
  | exit c' =>
    simp only [step] at hs
    split at hs
    · cases hs
    · split at hs
      · cases hs
        exact same rfl
      · cases hs
  | cancel c' =>
    simp only [step] at hs
    split at hs
    · cases hs
    · split at hs
      · cases hs
        exact same rfl
      · cases hs
  | supervise c' =>
    simp only [step] at hs
    split at hs
    · cases hs
    · rename_i y hy
      split at hs
      · cases hs
      · rename_i hg
        simp only [not_or] at hg
        obtain ⟨hg1, hg2, hg3⟩ := hg
        cases hs
        rcases stays_removeKey s k y.key e he with h | h
        · exact Or.inl h
        · subst h
          exact Or.inr ⟨.ended hy rfl hg1, by simpa using hg3⟩
  | cleanup =>
    simp only [step] at hs
    split at hs
    · cases hs
    · rename_i hf
      cases hs
      rcases stays_removeKeys _ s k e he with h | h
      · exact Or.inl ⟨e, h.1, rfl⟩
      · obtain ⟨e, h1, h2⟩ := (mem_idle hn k).mp h.2
        exact Or.inr ⟨.idle h1 h2, allFree_free (by simpa using hf) k⟩
  | tick d =>
    cases hs
    exact same rfl

/-! ## New connections -/

theorem removeKey_len (s : State K) (k : K) : (s.removeKey k).conns.length = s.conns.length := by
  unfold State.removeKey
  split
  · rfl
  · simp [State.drop, State.setConn]

theorem removeKeys_len : ∀ (ks : List K) (s : State K), (ks.foldl State.removeKey s).conns.length = s.conns.length
  | [], _ => rfl
  | k :: ks, s => by rw [List.foldl_cons, removeKeys_len ks, removeKey_len]

theorem offer_len {s w cl : State K} {i c : Nat} (hw : w.conns.length = s.conns.length) (hc : cl.conns.length = s.conns.length) :
    (s.offer i c w cl).conns.length = s.conns.length := by
  unfold State.offer
  split
  · exact hc
  · split
    · split
      · simp [State.push, State.setPc, State.setConn]
      · exact hw
    · exact hc

theorem taskStep_new {cfg : Cfg K} {s s' : State K} {i : Nat} {ok : Bool} {hint : Option K}
    (hs : taskStep cfg s i ok hint = some s') : s'.conns.length = s.conns.length ∨
      ∃ key, s.tasks[i]? = some ⟨key, .connecting⟩ ∧ s'.conns = s.conns ++ [({ key := key } : Conn K)] := by
  unfold taskStep at hs
  split at hs
  · cases hs
  · split at hs
    · cases hs
    · split at hs <;> cases hs
      · exact Or.inl rfl
      · exact Or.inl (offer_len (s := s.touch _) (by rfl) (by rfl))
  · cases hs
    exact Or.inl (offer_len rfl rfl)
  · split at hs <;> cases hs
    exact Or.inl (removeKey_len _ _)
  · split at hs
    · split at hs <;> cases hs
      exact Or.inl rfl
    · split at hs <;> cases hs
      exact Or.inl rfl
  · split at hs
    · cases hs
      exact Or.inl rfl
    · split at hs <;> cases hs <;> exact Or.inl rfl
  · split at hs <;> cases hs
    exact Or.inl (removeKeys_len _ _)
  · split at hs <;> cases hs
    exact Or.inl rfl
  · cases hs
    exact Or.inl rfl
  · split at hs <;> cases hs
    exact Or.inl (removeKey_len _ _)
  · rename_i key ht
    split at hs <;> cases hs
    · exact Or.inr ⟨key, ht, rfl⟩
    · exact Or.inl rfl
  · split at hs <;> cases hs
    exact Or.inl (removeKey_len _ _)
  · cases hs
    exact Or.inl (offer_len rfl rfl)
  · split at hs <;> cases hs
    exact Or.inl (removeKey_len _ _)
  · cases hs

/-- A connection that was not there before is a new one. -/
theorem step_new {cfg : Cfg K} {s s' : State K} {a : Act K} (hs : step cfg s a = some s') :
    s'.conns.length = s.conns.length ∨
      ∃ i ok hint key, a = .task i ok hint ∧ s.tasks[i]? = some ⟨key, .connecting⟩ ∧ s'.conns = s.conns ++ [({ key := key } : Conn K)] := by
  cases a with
  | call k => cases hs; exact Or.inl rfl
  | task i ok hint =>
    rcases taskStep_new hs with h | ⟨key, h⟩
    · exact Or.inl h
    · exact Or.inr ⟨i, ok, hint, key, rfl, h⟩
  | write c =>
    simp only [step] at hs
    split at hs
    · cases hs
    · split at hs <;> cases hs
      simp [State.setConn]
  | exit c =>
    simp only [step] at hs
    split at hs
    · cases hs
    · split at hs <;> cases hs
      simp [State.setConn]
  | cancel c =>
    simp only [step] at hs
    split at hs
    · cases hs
    · split at hs <;> cases hs
      simp [State.setConn]
  | supervise c =>
    simp only [step] at hs
    split at hs
    · cases hs
    · split at hs <;> cases hs
      simp [supervise, State.setConn, removeKey_len]
  | cleanup =>
    simp only [step] at hs
    split at hs <;> cases hs
    exact Or.inl (removeKeys_len _ _)
  | tick d => cases hs; exact Or.inl rfl

/-- A property of connections that new ones have and steps keep. -/
theorem conns_inv {cfg : Cfg K} {P : State K → Nat → Conn K → Prop} {s s' : State K} {a : Act K} (hn : (Tbl.keys s.map).Nodup)
    (h : ∀ c x, s.conns[c]? = some x → P s c x) (hnew : ∀ c key, P s' c { key := key })
    (hold : ∀ c x x', P s c x → Effect cfg s a c x x' → P s' c x')
    (hs : step cfg s a = some s') (c : Nat) (x' : Conn K) (hx' : s'.conns[c]? = some x') : P s' c x' := by
  cases hx : s.conns[c]? with
  | some x =>
    obtain ⟨y, hy, he⟩ := step_effect hn hx hs
    rw [hx'] at hy
    cases hy
    exact hold c x x' (h c x hx) he
  | none =>
    have h1 := (List.getElem?_eq_none_iff).mp hx
    have h2 := (List.getElem?_eq_some_iff.mp hx').1
    rcases step_new hs with hl | ⟨i, ok, hint, key, _, _, hc⟩
    · omega
    · rw [hc, List.getElem?_append_right h1] at hx'
      have := List.mem_of_getElem? hx'
      rw [List.mem_singleton] at this
      rw [this]
      exact hnew c key

/-! ## Calls -/

theorem offer_other {s w cl : State K} {i c j : Nat} (hij : i ≠ j) (hw : w.tasks[j]? = s.tasks[j]?) (hc : cl.tasks[j]? = s.tasks[j]?) :
    (s.offer i c w cl).tasks[j]? = s.tasks[j]? := by
  unfold State.offer
  split
  · exact hc
  · split
    · split
      · simp only [State.push, State.setPc, setConn_tasks]
        rw [List.getElem?_modify]
        cases s.tasks[j]? <;> simp [hij]
      · exact hw
    · exact hc

theorem setPc_other (s : State K) {i j : Nat} (hij : i ≠ j) (pc : Pc K) : (s.setPc i pc).tasks[j]? = s.tasks[j]? := by
  simp only [State.setPc]
  rw [List.getElem?_modify]
  cases s.tasks[j]? <;> simp [hij]

theorem taskStep_other {cfg : Cfg K} {s s' : State K} {i j : Nat} {ok : Bool} {hint : Option K} (hij : i ≠ j)
    (hs : taskStep cfg s i ok hint = some s') : s'.tasks[j]? = s.tasks[j]? := by
  unfold taskStep at hs
  split at hs
  · cases hs
  · split at hs
    · cases hs
    · split at hs
      · cases hs
        exact setPc_other s hij _
      · cases hs
        rw [offer_other hij (setPc_other _ hij _) (setPc_other _ hij _)]
        rfl
  · cases hs
    exact offer_other hij rfl (setPc_other _ hij _)
  · split at hs
    · cases hs
    · cases hs
      rw [setPc_other _ hij, removeKey_tasks]
  · split at hs
    · split at hs
      · cases hs
        exact setPc_other s hij _
      · cases hs
    · split at hs
      · cases hs
      · cases hs
        exact setPc_other s hij _
  · split at hs
    · cases hs
      rw [setPc_other _ hij]
    · split at hs <;> cases hs <;> exact setPc_other s hij _
  · split at hs
    · cases hs
    · cases hs
      rw [setPc_other _ hij]
      unfold cleanup
      rw [removeKeys_tasks]
  · split at hs
    · cases hs
    · cases hs
      exact setPc_other s hij _
  · cases hs
    exact setPc_other s hij _
  · split at hs
    · cases hs
    · cases hs
      rw [setPc_other _ hij, removeKey_tasks]
  · split at hs <;> cases hs <;> rw [setPc_other _ hij]
  · split at hs
    · cases hs
    · cases hs
      rw [setPc_other _ hij, insertKey_tasks]
  · cases hs
    exact offer_other hij rfl (setPc_other _ hij _)
  · split at hs
    · cases hs
    · cases hs
      rw [setPc_other _ hij, removeKey_tasks]
  · cases hs

/-- Only its own steps change a call. -/
theorem step_other {cfg : Cfg K} {s s' : State K} {a : Act K} {j : Nat} {t : Task K} (ht : s.tasks[j]? = some t)
    (ha : ∀ ok hint, a ≠ .task j ok hint) (hs : step cfg s a = some s') : s'.tasks[j]? = some t := by
  cases a with
  | call k =>
    cases hs
    simp only
    rw [List.getElem?_append_left (List.getElem?_eq_some_iff.mp ht).1]
    exact ht
  | task i ok hint =>
    have hij : i ≠ j := by
      rintro rfl
      exact ha ok hint rfl
    rw [taskStep_other hij hs]
    exact ht
  | write c =>
    simp only [step] at hs
    split at hs
    · cases hs
    · split at hs
      · cases hs; exact ht
      · cases hs
  | exit c =>
    simp only [step] at hs
    split at hs
    · cases hs
    · split at hs
      · cases hs; exact ht
      · cases hs
  | cancel c =>
    simp only [step] at hs
    split at hs
    · cases hs
    · split at hs
      · cases hs; exact ht
      · cases hs
  | supervise c =>
    simp only [step] at hs
    split at hs
    · cases hs
    · split at hs
      · cases hs
      · cases hs
        unfold supervise
        simp only [setConn_tasks, removeKey_tasks]
        exact ht
  | cleanup =>
    simp only [step] at hs
    split at hs
    · cases hs
    · cases hs
      unfold cleanup
      rw [removeKeys_tasks]
      exact ht
  | tick d => cases hs; exact ht

end Siphon.Pool
