import Verif.Bridge.Run
/-! Lemmas: what becomes of the responses of one call. -/
namespace Siphon.Bridge
open HdrSpec TextSpec Spec
open Siphon.Dlg (Dialog DialogId Mgr copyHeader first_iff absent_iff)
open Siphon.Dlg.Spec (First Absent)

/-! ## Maps -/

theorem get_mem {K V : Type} [DecidableEq K] : ∀ (t : Tbl K V) {k : K} {v : V}, t.get k = some v → (k, v) ∈ t
  | [], _, _, h => by cases h
  | (k', v') :: t, k, v, h => by
    rw [Tbl.get_cons] at h
    split at h
    · rename_i e
      cases h
      subst e
      simp
    · exact List.mem_cons_of_mem _ (get_mem t h)

theorem get_filter {K V : Type} [DecidableEq K] (p : K × V → Bool) : ∀ (t : Tbl K V) {k : K} {v : V}, t.get k = some v →
    (∀ e ∈ t, e.1 = k → p e = true) → Tbl.get (t.filter p) k = some v
  | [], _, _, h, _ => by cases h
  | (k', v') :: t, k, v, h, hp => by
    rw [Tbl.get_cons] at h
    split at h
    · rename_i e
      have := hp (k', v') (by simp) e
      rw [List.filter_cons, if_pos this, Tbl.get_cons, if_pos e]
      exact h
    · rename_i e
      have ih := get_filter p t h (fun e he => hp e (by simp [he]))
      rw [List.filter_cons]
      split
      · rw [Tbl.get_cons, if_neg e]
        exact ih
      · exact ih

theorem mem_get {K V : Type} [DecidableEq K] : ∀ (t : Tbl K V) {k : K} {v : V}, (k, v) ∈ t → t.get k ≠ none
  | (k', v') :: t, k, v, h => by
    rw [Tbl.get_cons]
    split
    · simp
    · rename_i e
      rcases List.mem_cons.mp h with h | h
      · cases h; exact absurd rfl e
      · exact mem_get t h

theorem get_filter_same {K V : Type} [DecidableEq K] (p : K × V → Bool) (t : Tbl K V) {k : K}
    (h : ∀ e ∈ t, e.1 = k → p e = true) : Tbl.get (t.filter p) k = t.get k := by
  cases hk : t.get k with
  | some v => exact get_filter p t hk h
  | none =>
    cases hf : Tbl.get (t.filter p) k with
    | none => rfl
    | some v =>
      have := (List.mem_filter.mp (get_mem _ hf)).1
      exact absurd hk (mem_get _ this)


theorem mem_update {K V : Type} [DecidableEq K] {t : Tbl K V} {k : K} {f : V → V} {e : K × V} (h : e ∈ t.update k f) :
    (e ∈ t ∧ e.1 ≠ k) ∨ ∃ v, (k, v) ∈ t ∧ e = (k, f v) := by
  unfold Tbl.update at h
  obtain ⟨x, hx, he⟩ := List.mem_map.mp h
  split at he
  · rename_i ek
    right
    obtain ⟨k', v⟩ := x
    simp only at ek he
    subst ek
    exact ⟨v, hx, he.symm⟩
  · subst he
    exact .inl ⟨hx, by assumption⟩

theorem mem_remove {K V : Type} [DecidableEq K] {t : Tbl K V} {k : K} {e : K × V} (h : e ∈ t.remove k) : e ∈ t :=
  (List.mem_filter.mp h).1

theorem mem_insert {K V : Type} [DecidableEq K] {t : Tbl K V} {k : K} {v : V} {e : K × V} (h : e ∈ t.insert k v) : e = (k, v) ∨ e ∈ t := by
  rcases List.mem_cons.mp h with h | h
  · exact .inl h
  · exact .inr (mem_remove h)

theorem get_update_cases {K V : Type} [DecidableEq K] {t : Tbl K V} {k k' : K} {f : V → V} {v : V} (h : (t.update k f).get k' = some v) :
    (k' ≠ k ∧ t.get k' = some v) ∨ (k' = k ∧ ∃ w, t.get k = some w ∧ v = f w) := by
  by_cases e : k' = k
  · subst e
    rw [Tbl.get_update_self] at h
    cases hg : t.get k' with
    | none => rw [hg] at h; cases h
    | some w => rw [hg] at h; cases h; exact .inr ⟨rfl, w, rfl, rfl⟩
  · rw [Tbl.get_update_ne _ _ e] at h
    exact .inl ⟨e, h⟩

theorem choose_mem {α : Type} {i : Nat} {l : List α} {x : α} (h : choose i l = some x) : x ∈ l :=
  List.mem_of_getElem? h

theorem byIncoming_some {s : St} {i : Nat} {cid : Str} {l : Leg} (h : byIncoming s i cid = some l) :
    (∃ k, (k, l) ∈ s.legs) ∧ l.inId = cid := by
  have := choose_mem h
  obtain ⟨h1, h2⟩ := List.mem_filter.mp this
  obtain ⟨e, he, rfl⟩ := List.mem_map.mp h1
  exact ⟨⟨e.1, he⟩, by simpa using h2⟩

/-! ## The shape of the state -/

/-- the state, for the calls other than `b`; `t` is the transaction of the call `b`, if there is one -/
structure Shape (M : Leg → Prop) (t : Option Nat) (a b : Str) (s : St) : Prop where
  legs : ∀ e ∈ s.legs, e.1 = e.2.outId ∧ e.2.chan < s.next ∧ (e.1 = b → M e.2) ∧ (e.1 ≠ b → some e.2.chan ≠ t)
  chans : ∀ k c, s.chans.get k = some c → k < s.next ∧ (some k ≠ t → c.outId ≠ b)
  cancels : ∀ c ∈ s.cancels, c.callId ≠ a
  txn : ∀ k, t = some k → k < s.next

variable {M : Leg → Prop} {t : Option Nat} {a b : Str} {rq : Request} {now : Nat} {cfg : Cfg}

theorem shape_tick {s : St} (h : Shape M t a b s) : Shape M t a b { s with next := s.next + 1 } := by
  refine ⟨?_, ?_, h.cancels, ?_⟩
  · intro e he
    obtain ⟨h1, h2, h3⟩ := h.legs e he
    exact ⟨h1, Nat.lt_succ_of_lt h2, h3⟩
  · intro k c hk
    obtain ⟨h1, h2⟩ := h.chans k c hk
    exact ⟨Nat.lt_succ_of_lt h1, h2⟩
  · intro k hk
    exact Nat.lt_succ_of_lt (h.txn k hk)

theorem shape_fewer {s : St} (h : Shape M t a b s) {l : Tbl Str Leg} (hl : ∀ e ∈ l, e ∈ s.legs) : Shape M t a b { s with legs := l } :=
  ⟨fun e he => h.legs e (hl e he), h.chans, h.cancels, h.txn⟩

theorem shape_mgr {s : St} (h : Shape M t a b s) (m : Mgr) : Shape M t a b { s with mgr := m } :=
  ⟨h.legs, h.chans, h.cancels, h.txn⟩

theorem shape_chan {s : St} (h : Shape M t a b s) (k : Nat) (f : Chan → Chan) (hf : ∀ c, (f c).outId = c.outId) :
    Shape M t a b { s with chans := s.chans.update k f } := by
  refine ⟨h.legs, ?_, h.cancels, h.txn⟩
  intro k' c hk
  simp only at hk
  rcases get_update_cases hk with ⟨_, hg⟩ | ⟨rfl, w, hg, rfl⟩
  · exact h.chans k' c hg
  · rw [hf]
    exact h.chans _ w hg

theorem shape_enqueue {s : St} (h : Shape M t a b s) (k : Nat) (r : Response) : Shape M t a b (enqueue s k r) := by
  refine shape_chan h k (fun c => if c.live then { c with queue := c.queue ++ [r] } else c) ?_
  intro c
  split <;> rfl

theorem shape_leg (hM : ∀ l l', Static l l' → M l → M l') {s : St} (h : Shape M t a b s) {k : Str} {l l' : Leg}
    (hg : s.legs.get k = some l) (hl : Static l l') : Shape M t a b { s with legs := s.legs.update k (fun _ => l') } := by
  refine ⟨?_, h.chans, h.cancels, h.txn⟩
  intro e he
  simp only at he
  rcases mem_update he with ⟨he, _⟩ | ⟨v, _, rfl⟩
  · exact h.legs e he
  · obtain ⟨h1, h2, h3, h4⟩ := h.legs _ (get_mem _ hg)
    simp only at h1 h2 h3 h4 ⊢
    refine ⟨h1.trans hl.1.symm, by rw [hl.2.1]; exact h2, fun e => hM l l' hl (h3 e), fun e => by rw [hl.2.1]; exact h4 e⟩

theorem placed_leg {look : Lookup} {f : Fresh} {k : Nat} {q : Request} {l : Leg} (h : placeCall cfg look f now k q = .stored l) :
    l.outId = f.callId ∧ l.chan = k ∧ (∀ v, First q.headers "Call-ID" v → l.inId = v) ∧ l.caller = q ∧ l.born = now := by
  unfold placeCall at h
  split at h
  · cases h
  · split at h
    · cases h
    · split at h
      · split at h
        · cases h
        · cases h
          refine ⟨rfl, rfl, ?_, rfl, rfl⟩
          intro v hv
          rw [first_iff] at hv
          simp only [hv]
      · cases h

theorem callIdOf_first {q : Request} {v : Str} (h : First q.headers "Call-ID" v) : callIdOf q = v := by
  rw [first_iff] at h
  unfold callIdOf
  rw [h]

theorem shape_step (hM : ∀ l l', Static l l' → M l → M l') {s : St} (h : Shape M t a b s) (e : Ev) (he : Leaves rq a b now e) :
    Shape M t a b (step cfg s e).1 := by
  cases e with
  | invite q look f n i =>
    show Shape M t a b (onInvite cfg s q look f n i).1
    unfold onInvite
    simp only
    split
    · exact shape_tick h
    · split
      · exact shape_tick h
      · exact shape_tick h
    · split
      · exact shape_tick h
      · split
        · exact shape_tick h
        · exact shape_tick h
        · rename_i leg hp
          obtain ⟨h1, h2, _⟩ := placed_leg hp
          have hb : leg.outId ≠ b := by rw [h1]; exact he
          have h' := shape_tick h
          refine ⟨?_, ?_, h'.cancels, h'.txn⟩
          · intro e he
            rcases mem_insert he with rfl | he
            · refine ⟨rfl, ?_, fun e => absurd e hb, ?_⟩
              · show leg.chan < s.next + 1
                omega
              · intro _ e
                have := h.txn _ e.symm
                rw [h2] at this
                exact absurd this (Nat.lt_irrefl _)
            · exact h'.legs e he
          · intro k c hk
            simp only at hk
            by_cases ek : k = s.next
            · subst ek
              rw [Tbl.get_insert_self] at hk
              cases hk
              exact ⟨Nat.lt_succ_self _, fun _ => hb⟩
            · rw [Tbl.get_insert_ne _ _ ek] at hk
              exact h'.chans k c hk
  | ack q i br => exact h
  | bye q i f =>
    show Shape M t a b (onBye cfg s q i f).1
    unfold onBye
    simp only
    split
    · split
      · exact shape_tick h
      · exact shape_fewer (shape_tick h) (fun e he => mem_remove he)
    · split
      · exact shape_tick h
      · split
        · exact shape_tick h
        · split
          · exact shape_fewer (shape_tick h) (fun e he => mem_remove he)
          · split
            · exact shape_fewer (shape_tick h) (fun e he => mem_remove he)
            · exact shape_fewer (shape_tick h) (fun e he => mem_remove he)
  | cancel q i f =>
    obtain ⟨v, hv, hva⟩ := he
    show Shape M t a b (onCancel cfg s q i f).1
    unfold onCancel
    simp only
    split
    · exact shape_tick h
    · split
      · exact shape_tick h
      · split
        · exact shape_tick h
        · rename_i leg _
          have h' := shape_enqueue (shape_tick h) leg.chan (terminated leg.caller)
          refine ⟨h'.legs, h'.chans, ?_, h'.txn⟩
          intro c hc
          rcases List.mem_append.mp hc with hc | hc
          · exact h.cancels c hc
          · simp only [List.mem_singleton] at hc
            subst hc
            rw [callIdOf_first hv]
            exact hva
  | cancelOn k i =>
    show Shape M t a b (onCancelOn s k i).1
    unfold onCancelOn
    split
    · exact h
    · rename_i c hc
      have hmem : c ∈ s.cancels := List.mem_of_getElem? hc
      simp only
      split
      · have h' : Shape M t a b { s with cancels := s.cancels.eraseIdx k } :=
          ⟨h.legs, h.chans, fun c hc => h.cancels c (List.mem_of_mem_eraseIdx hc), h.txn⟩
        split
        · exact h'
        · exact shape_fewer h' (fun e he => mem_remove he)
      · have h' : Shape M t a b { s with cancels := s.cancels.set k { c with passed := true } } := by
          refine ⟨h.legs, h.chans, ?_, h.txn⟩
          intro c' hc'
          rcases List.mem_or_eq_of_mem_set hc' with hc' | rfl
          · exact h.cancels c' hc'
          · exact h.cancels c hmem
        split
        · exact h'
        · exact h'
  | response r =>
    show Shape M t a b (onResponse s r)
    unfold onResponse
    split
    · exact h
    · split
      · exact h
      · exact shape_enqueue h _ _
  | relay k =>
    show Shape M t a b (onRelay cfg s k).1
    unfold onRelay
    split
    · exact h
    · rename_i c hc
      split
      · rename_i r rest hl hq
        simp only
        split
        · exact shape_chan h k (fun c => { c with queue := rest, live := false }) (fun _ => rfl)
        · rename_i leg hg
          have hst := transform_static cfg leg s.mgr r
          split
          · rename_i leg' m et
            rw [et] at hst
            exact shape_chan (shape_mgr (shape_leg hM h hg hst) m) k (fun c => { c with queue := rest, live := false }) (fun _ => rfl)
          · exact shape_chan (shape_fewer h (fun e he => mem_remove he)) k (fun c => { c with queue := rest, live := false }) (fun _ => rfl)
          · rename_i r' leg' m et
            rw [et] at hst
            have h' := shape_mgr (shape_leg hM h hg hst) m
            split
            · exact shape_chan h' k (fun c => { c with queue := rest, live := true }) (fun _ => rfl)
            · split
              · exact shape_chan h' k (fun c => { c with queue := rest, live := false }) (fun _ => rfl)
              · exact shape_chan (shape_fewer h' (fun e he => mem_remove he)) k (fun c => { c with queue := rest, live := false }) (fun _ => rfl)
      · exact h
  | sweep n => exact shape_fewer h (fun e he => (List.mem_filter.mp he).1)

/-! ## The call itself -/

/-- the leg of the call -/
def Mine (rq : Request) (a b : Str) (now t : Nat) (l : Leg) : Prop :=
  l.outId = b ∧ l.chan = t ∧ l.inId = a ∧ l.caller = rq ∧ l.born = now

theorem mine_static {rq : Request} {a b : Str} {now t : Nat} : ∀ l l', Static l l' → Mine rq a b now t l → Mine rq a b now t l' := by
  rintro l l' ⟨h1, h2, h3, h4, _, _, h7⟩ ⟨g1, g2, g3, g4, g5⟩
  exact ⟨h1.trans g1, h2.trans g2, h3.trans g3, h4.trans g4, h7.trans g5⟩

/-- the leg after a response that accepts the call -/
def accepted (cfg : Cfg) (lg : Leg) (r : Response) (l : Leg) : Prop := ∃ m, (transform cfg lg m r).2.1 = l

/-- the responses so far: `arr` arrived, `rs` were answered -/
inductive Relay (cfg : Cfg) (rq : Request) (b : Str) (t : Nat) (lg : Leg) (s : St) (arr rs : List Response) : Prop
  | going (q done : List Response) : s.chans.get t = some ⟨b, q, true⟩ → s.legs.get b = some lg → arr = done ++ q →
      (∀ r ∈ done, r.code < 200) → Each (Relayed cfg.localUri rq) done rs → (∀ r ∈ q, Passable rq r) → Relay cfg rq b t lg s arr rs
  | ended (q done : List Response) (r : Response) (rest : List Response) : s.chans.get t = some ⟨b, q, false⟩ →
      arr = done ++ r :: rest → (∀ r ∈ done, r.code < 200) → 200 ≤ r.code → Each (Relayed cfg.localUri rq) (done ++ [r]) rs →
      ((r.code < 300 → ∃ l, s.legs.get b = some l ∧ accepted cfg lg r l) ∧ (300 ≤ r.code → s.legs.get b = none)) → Relay cfg rq b t lg s arr rs

/-- nothing changed for the call -/
theorem relay_same {t : Nat} {lg : Leg} {s s' : St} {arr rs : List Response} (h : Relay cfg rq b t lg s arr rs)
    (hc : s'.chans.get t = s.chans.get t) (hl : s'.legs.get b = s.legs.get b) :
    Relay cfg rq b t lg s' arr rs := by
  cases h with
  | going q done h1 h2 h3 h4 h5 h6 => exact .going q done (hc.trans h1) (hl.trans h2) h3 h4 h5 h6
  | ended q done r rest h1 h2 h3 h4 h5 h6 =>
    refine .ended q done r rest (hc.trans h1) h2 h3 h4 h5 ?_
    rw [hl]
    exact h6

theorem each_snoc {α β : Type} {R : α → β → Prop} {as : List α} {bs : List β} (h : Each R as bs) {x : α} {y : β} (hxy : R x y) :
    Each R (as ++ [x]) (bs ++ [y]) := by
  induction h with
  | nil => exact .cons hxy .nil
  | cons h _ ih => exact .cons h ih

theorem relay_enqueue {lg : Leg} {t k : Nat} {s : St} {arr rs : List Response} {r : Response} (h : Relay cfg rq b t lg s arr rs)
    (hk : k ≠ t) : Relay cfg rq b t lg (enqueue s k r) arr rs := by
  refine relay_same h ?_ rfl
  have e : (enqueue s k r).chans = s.chans.update k (fun c => if c.live then { c with queue := c.queue ++ [r] } else c) := rfl
  rw [e, Tbl.get_update_ne _ _ (Ne.symm hk)]

/-- a leg found by the Call-ID of another call is not the leg of this call -/
theorem not_mine {t : Nat} {s : St} (h : Shape (Mine rq a b now t) (some t) a b s) {i : Nat} {v : Str} {l : Leg}
    (hl : byIncoming s i v = some l) (hv : v ≠ a) : l.outId ≠ b ∧ l.chan ≠ t := by
  obtain ⟨⟨k, hk⟩, hin⟩ := byIncoming_some hl
  obtain ⟨h1, _, h3, h4⟩ := h.legs _ hk
  simp only at h1 h3 h4
  have hkb : k ≠ b := by
    intro e
    have := (h3 e).2.2.1
    exact hv (hin.symm.trans this)
  exact ⟨by rw [← h1]; exact hkb, fun e => h4 hkb (by rw [e])⟩

theorem relay_removed {lg : Leg} {t : Nat} {s : St} {arr rs : List Response} (h : Relay cfg rq b t lg s arr rs) {k : Str} (hk : k ≠ b) :
    Relay cfg rq b t lg { s with legs := s.legs.remove k } arr rs :=
  relay_same h rfl (by simp only; rw [Tbl.get_remove_ne _ (Ne.symm hk)])

/-- a turn of the relay task of another call -/
theorem relay_other {lg : Leg} {t k : Nat} {s s' : St} {arr rs : List Response} (h : Relay cfg rq b t lg s arr rs) (hk : k ≠ t)
    {c : Str} (hc : c ≠ b) {q : List Response} {live : Bool}
    (h1 : s'.chans = s.chans.update k (fun c => { c with queue := q, live := live }))
    (h2 : s'.legs = s.legs ∨ (∃ l', s'.legs = s.legs.update c (fun _ => l')) ∨ s'.legs = s.legs.remove c ∨
      ∃ l', s'.legs = (s.legs.update c (fun _ => l')).remove c) : Relay cfg rq b t lg s' arr rs := by
  refine relay_same h ?_ ?_
  · rw [h1, Tbl.get_update_ne _ _ (Ne.symm hk)]
  · rcases h2 with h2 | ⟨l', h2⟩ | h2 | ⟨l', h2⟩
    · rw [h2]
    · rw [h2, Tbl.get_update_ne _ _ (Ne.symm hc)]
    · rw [h2, Tbl.get_remove_ne _ (Ne.symm hc)]
    · rw [h2, Tbl.get_remove_ne _ (Ne.symm hc), Tbl.get_update_ne _ _ (Ne.symm hc)]

theorem relay_not {lg : Leg} {t k : Nat} {s : St} {arr rs : List Response}
    (hs : Shape (Mine rq a b now t) (some t) a b s) (h : Relay cfg rq b t lg s arr rs) (hk : k ≠ t) :
    Relay cfg rq b t lg (onRelay cfg s k).1 arr rs ∧ ans t (onRelay cfg s k).2 = [] := by
  unfold onRelay
  split
  · exact ⟨h, rfl⟩
  · rename_i c hc
    have hcb : c.outId ≠ b := (hs.chans k c hc).2 (fun e => hk (by cases e; rfl))
    split
    · simp only
      split
      · exact ⟨relay_other h hk hcb rfl (.inl rfl), rfl⟩
      · split
        · exact ⟨relay_other h hk hcb rfl (.inr (.inl ⟨_, rfl⟩)), rfl⟩
        · exact ⟨relay_other h hk hcb rfl (.inr (.inr (.inl rfl))), rfl⟩
        · split
          · exact ⟨relay_other h hk hcb rfl (.inr (.inl ⟨_, rfl⟩)), ans_one (Ne.symm hk) _⟩
          · split
            · exact ⟨relay_other h hk hcb rfl (.inr (.inl ⟨_, rfl⟩)), ans_one (Ne.symm hk) _⟩
            · exact ⟨relay_other h hk hcb rfl (.inr (.inr (.inr ⟨_, rfl⟩))), ans_one (Ne.symm hk) _⟩
    · exact ⟨h, rfl⟩

/-- the code of a relayed response -/
theorem relayed_code {me : Str} {r r' : Response} (h : Relayed me rq r r') :
    (r.code < 200 → r'.code = r.code) ∧ (200 ≤ r.code → 200 ≤ r'.code) := by
  rcases h.status with ⟨h1, h2, _⟩ | ⟨h1, h2, _⟩
  · exact ⟨fun _ => h2, fun h => by omega⟩
  · exact ⟨fun h => by omega, fun h => by omega⟩

/-- a response that does not accept the call changes nothing -/
theorem transform_early {leg : Leg} {m : Mgr} {r : Response} (h : ¬ (200 ≤ r.code ∧ r.code < 300)) :
    (transform cfg leg m r).2.1 = leg := by
  unfold transform
  split
  · simp only
    split
    · rfl
    · rw [if_neg h]
  · rfl

/-- a turn of the relay task of the call -/
theorem relay_turn {lg : Leg} {t : Nat} {s : St} {arr rs : List Response} (ha : Answerable rq) (hm : Fits (bracket cfg.localUri))
    (hs : Shape (Mine rq a b now t) (some t) a b s) (h : Relay cfg rq b t lg s arr rs) :
    Relay cfg rq b t lg (onRelay cfg s t).1 arr (rs ++ ans t (onRelay cfg s t).2) := by
  cases h with
  | ended q done r rest h1 h2 h3 h4 h5 h6 =>
    unfold onRelay
    rw [h1]
    simp only [ans, List.append_nil]
    exact .ended q done r rest h1 h2 h3 h4 h5 h6
  | going q done h1 h2 h3 h4 h5 h6 =>
    cases q with
    | nil =>
      unfold onRelay
      rw [h1]
      simp only [ans, List.append_nil]
      exact .going [] done h1 h2 h3 h4 h5 h6
    | cons r q =>
      have hml : Mine rq a b now t lg := (hs.legs _ (get_mem _ h2)).2.2.1 rfl
      have hcl := hml.2.2.2.1
      have hp := h6 r (by simp)
      obtain ⟨r', l', m', et, hrel⟩ := transform_passes (cfg := cfg) (leg := lg) (m := s.mgr) (r := r) (by rw [hcl]; exact ha)
        (by rw [hcl]; exact hp) hm
      rw [hcl] at hrel
      have hrc := relayed_code hrel
      unfold onRelay
      rw [h1]
      simp only [h2, et]
      by_cases hcode : r.code < 200
      · have e := hrc.1 hcode
        have h100 := hp.code
        rw [if_pos (by omega)]
        simp only [ans_reply]
        refine .going q (done ++ [r]) ?_ ?_ (by simp [h3]) ?_ (each_snoc h5 hrel) (fun x hx => h6 x (by simp [hx]))
        · simp only
          rw [Tbl.get_update_self, h1]
          rfl
        · simp only
          rw [Tbl.get_update_self, h2]
          have := transform_early (cfg := cfg) (leg := lg) (m := s.mgr) (r := r) (by omega)
          rw [et] at this
          simp only at this
          rw [← this]
          rfl
        · intro x hx
          rcases List.mem_append.mp hx with hx | hx
          · exact h4 x hx
          · simp only [List.mem_singleton] at hx
            subst hx
            exact hcode
      · have e := hrc.2 (by omega)
        rw [if_neg (by omega)]
        have key : ∀ s' : St, s'.chans = s.chans.update t (fun c => { c with queue := q, live := false }) →
            (r.code < 300 → s'.legs.get b = some l') → (300 ≤ r.code → s'.legs.get b = none) → Relay cfg rq b t lg s' arr (rs ++ [r']) := by
          intro s' hs' hl' hn'
          refine .ended q done r q ?_ h3 h4 (by omega) (each_snoc h5 hrel) ?_
          · rw [hs', Tbl.get_update_self, h1]
            rfl
          · refine ⟨?_, hn'⟩
            intro h
            exact ⟨l', hl' h, s.mgr, by rw [et]⟩
        split
        · simp only [ans_reply]
          refine key _ rfl ?_ ?_
          · intro _
            simp only
            rw [Tbl.get_update_self, h2]
            rfl
          · intro h
            rcases hrel.status with ⟨_, e', _⟩ | ⟨e', e'', _⟩ <;> omega
        · rename_i hno
          simp only [ans_reply]
          refine key _ rfl ?_ ?_
          · intro h
            rcases hrel.status with ⟨_, e', _⟩ | ⟨e', _⟩ <;> omega
          · intro _
            simp only
            rw [Tbl.get_remove_self]

/-- a response that arrives -/
theorem relay_arrives {lg : Leg} {t : Nat} {s : St} {arr rs : List Response} {r : Response}
    (hs : Shape (Mine rq a b now t) (some t) a b s) (h : Relay cfg rq b t lg s arr rs) (hr : First r.headers "Call-ID" b)
    (hp : Passable rq r) : Relay cfg rq b t lg (onResponse s r) (arr ++ [r]) rs := by
  rw [first_iff] at hr
  unfold onResponse
  rw [hr]
  simp only
  cases h with
  | going q done h1 h2 h3 h4 h5 h6 =>
    have hml : Mine rq a b now t lg := (hs.legs _ (get_mem _ h2)).2.2.1 rfl
    rw [h2]
    simp only [hml.2.1]
    have e : (enqueue s t r).chans = s.chans.update t (fun c => if c.live then { c with queue := c.queue ++ [r] } else c) := rfl
    refine .going (q ++ [r]) done ?_ h2 (by simp [h3]) h4 h5 ?_
    · rw [e, Tbl.get_update_self, h1]
      rfl
    · intro x hx
      rcases List.mem_append.mp hx with hx | hx
      · exact h6 x hx
      · simp only [List.mem_singleton] at hx
        subst hx
        exact hp
  | ended q done r0 rest h1 h2 h3 h4 h5 h6 =>
    split
    · exact .ended q done r0 (rest ++ [r]) h1 (by simp [h2]) h3 h4 h5 h6
    · rename_i l hl
      have e : (enqueue s l.chan r).chans = s.chans.update l.chan (fun c => if c.live then { c with queue := c.queue ++ [r] } else c) := rfl
      refine .ended q done r0 (rest ++ [r]) ?_ (by simp [h2]) h3 h4 h5 h6
      rw [e]
      by_cases ek : t = l.chan
      · rw [← ek, Tbl.get_update_self, h1]
        rfl
      · rw [Tbl.get_update_ne _ _ ek, h1]

/-- what one event adds to the responses that arrived -/
def arrives (b : Str) : Ev → List Response
  | .response r => if r.headers.get "Call-ID".toList = some b then [r] else []
  | _ => []

theorem arrived_iff (b : Str) : ∀ (es : List Ev) (rs : List Response), Arrived b es rs ↔ rs = es.flatMap (arrives b)
  | [], rs => ⟨fun h => by cases h; rfl, fun h => by subst h; exact .nil⟩
  | e :: es, rs => by
    rw [List.flatMap_cons]
    constructor
    · intro h
      cases h with
      | mine h1 h2 =>
        rw [first_iff] at h1
        rw [(arrived_iff b es _).mp h2]
        simp only [arrives, if_pos h1]
        rfl
      | other h1 h2 =>
        rw [(arrived_iff b es _).mp h2]
        cases e with
        | response r =>
          have := h1 r rfl
          rw [first_iff] at this
          simp only [arrives, if_neg this]
          rfl
        | _ => rfl
    · intro h
      subst h
      cases e with
      | response r =>
        by_cases hr : r.headers.get "Call-ID".toList = some b
        · simp only [arrives, if_pos hr]
          exact .mine ((first_iff _ _ _).mpr hr) ((arrived_iff b es _).mpr rfl)
        · simp only [arrives, if_neg hr]
          refine .other ?_ ((arrived_iff b es _).mpr rfl)
          intro r' e hr'
          cases e
          exact hr ((first_iff _ _ _).mp hr')
      | _ => exact .other (fun _ e => by cases e) ((arrived_iff b es _).mpr rfl)

theorem relay_step {lg : Leg} {t : Nat} {s : St} {arr rs : List Response} (ha : Answerable rq) (hm : Fits (bracket cfg.localUri))
    (hs : Shape (Mine rq a b now t) (some t) a b s) (h : Relay cfg rq b t lg s arr rs) (e : Ev) (he : Leaves rq a b now e) :
    Relay cfg rq b t lg (step cfg s e).1 (arr ++ arrives b e) (rs ++ ans t (step cfg s e).2) := by
  have hlt : t < s.next := hs.txn t rfl
  have hne : s.next ≠ t := by omega
  have hne' : t ≠ s.next := by omega
  -- an event that is not for this call
  have key : ∀ {x : St × List Out} (_ : Relay cfg rq b t lg x.1 arr rs) (_ : ans t x.2 = []),
      Relay cfg rq b t lg x.1 (arr ++ []) (rs ++ ans t x.2) := by
    intro x h1 h2
    rw [h2, List.append_nil, List.append_nil]
    exact h1
  have tick : Relay cfg rq b t lg { s with next := s.next + 1 } arr rs := relay_same h rfl rfl
  cases e with
  | invite q look f n i =>
    refine key (x := onInvite cfg s q look f n i) ?_ ?_
    · unfold onInvite
      simp only
      split
      · exact tick
      · split
        · exact tick
        · exact tick
      · split
        · exact tick
        · split
          · exact tick
          · exact tick
          · rename_i leg hp
            obtain ⟨h1, _, _⟩ := placed_leg hp
            have hb : leg.outId ≠ b := by rw [h1]; exact he
            refine relay_same h ?_ ?_
            · simp only
              rw [Tbl.get_insert_ne _ _ hne']
            · simp only
              rw [Tbl.get_insert_ne _ _ (Ne.symm hb)]
    · unfold onInvite
      simp only
      split
      · rfl
      · split
        · rfl
        · rw [ans_reply_ne hne, (reinvite_ans cfg _ i s.next f.branch _ q).1 t hne']
      · split
        · rfl
        · split
          · exact ans_one hne' _
          · rw [ans_reply_ne hne, ans_one hne']
          · rw [ans_reply_ne hne, ans_sendTcp]
  | ack q i br =>
    refine key (x := (s, onAck s q i br)) h ?_
    show ans t (onAck s q i br) = []
    unfold onAck
    split
    · rfl
    · split
      · rfl
      · exact ans_sendTcp _ _ _
  | bye q i f =>
    obtain ⟨v, hv, hva, hvb⟩ := he
    refine key (x := onBye cfg s q i f) ?_ ?_
    · unfold onBye
      rw [callIdOf_first hv]
      simp only
      split
      · rename_i leg hl
        have hn := not_mine (shape_tick hs) hl hva
        split
        · exact tick
        · exact relay_removed tick hn.1
      · split
        · exact tick
        · rename_i leg hl
          have hn : leg.outId ≠ b := by
            rw [← (hs.legs _ (get_mem _ hl)).1]
            exact hvb
          split
          · exact tick
          · split
            · exact relay_removed tick hn
            · split
              · exact relay_removed tick hn
              · exact relay_removed tick hn
    · unfold onBye
      simp only
      split
      · split
        · rfl
        · rw [ans_reply_ne hne, ans_sendTcp]
      · split
        · exact ans_one hne' _
        · split
          · rfl
          · split
            · exact ans_one hne' _
            · split
              · exact ans_one hne' _
              · rw [ans_reply_ne hne]; rfl
  | cancel q i f =>
    obtain ⟨v, hv, hva⟩ := he
    refine key (x := onCancel cfg s q i f) ?_ ?_
    · unfold onCancel
      rw [callIdOf_first hv]
      simp only
      split
      · exact tick
      · split
        · exact tick
        · split
          · exact tick
          · rename_i leg hl
            have hn := not_mine (shape_tick hs) hl hva
            exact relay_same (relay_enqueue (k := leg.chan) (r := terminated leg.caller) tick hn.2) rfl rfl
    · unfold onCancel
      simp only
      split
      · exact (answer_ans s.next q.headers 500 "Server Error".toList f.reply).1 t hne'
      · split
        · rfl
        · split
          · exact ans_one hne' _
          · exact ans_one hne' _
  | cancelOn k i =>
    refine key (x := onCancelOn s k i) ?_ ?_
    · unfold onCancelOn
      split
      · exact h
      · rename_i c hc
        have hca : c.callId ≠ a := hs.cancels c (List.mem_of_getElem? hc)
        simp only
        split
        · have h' : Relay cfg rq b t lg { s with cancels := s.cancels.eraseIdx k } arr rs := relay_same h rfl rfl
          split
          · exact h'
          · rename_i leg hl
            have hn := not_mine (s := s) hs (i := i) hl hca
            exact relay_removed h' hn.1
        · have h' : Relay cfg rq b t lg { s with cancels := s.cancels.set k { c with passed := true } } arr rs :=
            relay_same h rfl rfl
          split
          · exact h'
          · exact h'
    · unfold onCancelOn
      split
      · rfl
      · simp only
        split
        · split <;> rfl
        · split
          · rfl
          · exact ans_sendTcp _ _ _
  | response r =>
    show Relay cfg rq b t lg (onResponse s r) (arr ++ arrives b (.response r)) (rs ++ ans t [])
    simp only [ans, List.append_nil]
    by_cases hr : r.headers.get "Call-ID".toList = some b
    · simp only [arrives, if_pos hr]
      have hr' := (first_iff _ _ _).mpr hr
      exact relay_arrives hs h hr' (he hr')
    · simp only [arrives, if_neg hr, List.append_nil]
      unfold onResponse
      split
      · exact h
      · rename_i cid hcid
        split
        · exact h
        · rename_i leg hl
          have hcb : cid ≠ b := fun e => hr (by rw [hcid, e])
          have := (hs.legs _ (get_mem _ hl)).2.2.2 hcb
          exact relay_enqueue h (fun e => this (by simp only; rw [e]))
  | relay k =>
    show Relay cfg rq b t lg (onRelay cfg s k).1 (arr ++ []) (rs ++ ans t (onRelay cfg s k).2)
    rw [List.append_nil]
    by_cases hk : k = t
    · subst hk
      exact relay_turn ha hm hs h
    · have := relay_not hs h hk
      rw [this.2, List.append_nil]
      exact this.1
  | sweep n =>
    refine key (x := (onSweep s n, [])) ?_ rfl
    refine relay_same h rfl ?_
    refine get_filter_same _ s.legs ?_
    intro e he' hb
    have := ((hs.legs e he').2.2.1 hb).2.2.2.2
    have hn : n < now + 300 := he
    have hlt : n - e.2.born < MAX_LEG_AGE := by
      rw [this]
      show n - now < 300
      omega
    exact decide_eq_true hlt

end Siphon.Bridge
