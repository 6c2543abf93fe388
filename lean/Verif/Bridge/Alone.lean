import Verif.Bridge.Props
/-! Lemmas: the leg of an accepted call. -/
namespace Siphon.Bridge
open HdrSpec TextSpec Spec
open Siphon.Dlg (Dialog DialogId Mgr copyHeader first_iff absent_iff)
open Siphon.Dlg.Spec (First Absent)

/-- no other leg has the Call-IDs -/
def Alone (a b : Str) (s : St) : Prop := ∀ e ∈ s.legs, (e.2.inId = a → e.1 = b) ∧ e.2.inId ≠ b

variable {a b : Str} {cfg : Cfg}

theorem alone_fewer {s s' : St} (h : Alone a b s) (hl : ∀ e ∈ s'.legs, e ∈ s.legs) : Alone a b s' := fun e he => h e (hl e he)

theorem alone_leg {s s' : St} (h : Alone a b s) {k : Str} {l l' : Leg} (hg : s.legs.get k = some l) (hl : Static l l')
    (hs : s'.legs = s.legs.update k (fun _ => l')) : Alone a b s' := by
  intro e he
  rw [hs] at he
  rcases mem_update he with ⟨he, _⟩ | ⟨v, _, rfl⟩
  · exact h e he
  · have := h _ (get_mem _ hg)
    simp only at this ⊢
    rw [hl.2.2.1]
    exact this

theorem alone_step {s : St} (h : Alone a b s) (e : Ev) (he : Others a b e) : Alone a b (step cfg s e).1 := by
  cases e with
  | invite q look f n i =>
    show Alone a b (onInvite cfg s q look f n i).1
    unfold onInvite
    simp only
    split
    · exact h
    · split <;> exact h
    · split
      · exact h
      · split
        · exact h
        · exact h
        · rename_i leg hp
          obtain ⟨v, hv, hva, hvb⟩ := he
          have hin := (placed_leg hp).2.2.1 v hv
          intro e he
          rcases mem_insert he with rfl | he
          · exact ⟨fun e => absurd (hin.symm.trans e) hva, fun e => hvb (hin.symm.trans e)⟩
          · exact h e he
  | ack q i br => exact h
  | bye q i f =>
    show Alone a b (onBye cfg s q i f).1
    unfold onBye
    simp only
    split
    · split
      · exact h
      · exact alone_fewer h (fun e he => mem_remove he)
    · split
      · exact h
      · split
        · exact h
        · split
          · exact alone_fewer h (fun e he => mem_remove he)
          · split
            · exact alone_fewer h (fun e he => mem_remove he)
            · exact alone_fewer h (fun e he => mem_remove he)
  | cancel q i f =>
    show Alone a b (onCancel cfg s q i f).1
    unfold onCancel
    simp only
    split
    · exact h
    · split
      · exact h
      · split
        · exact h
        · exact h
  | cancelOn k i =>
    show Alone a b (onCancelOn s k i).1
    unfold onCancelOn
    split
    · exact h
    · simp only
      split
      · split
        · exact h
        · exact alone_fewer h (fun e he => mem_remove he)
      · split
        · exact h
        · exact h
  | response r =>
    show Alone a b (onResponse s r)
    unfold onResponse
    split
    · exact h
    · split
      · exact h
      · exact h
  | relay k =>
    show Alone a b (onRelay cfg s k).1
    unfold onRelay
    split
    · exact h
    · rename_i c hc
      split
      · rename_i r rest hl hq
        simp only
        split
        · exact h
        · rename_i leg hg
          have hst := transform_static cfg leg s.mgr r
          split
          · rename_i leg' m et
            rw [et] at hst
            exact alone_leg h hg hst rfl
          · exact alone_fewer h (fun e he => mem_remove he)
          · rename_i r' leg' m et
            rw [et] at hst
            have h' : Alone a b { s with legs := s.legs.update c.outId (fun _ => leg') } := alone_leg h hg hst rfl
            split
            · exact h'
            · split
              · exact h'
              · exact alone_fewer h' (fun e he => mem_remove he)
      · exact h
  | sweep n => exact alone_fewer h (fun e he => (List.mem_filter.mp he).1)

theorem alone_run : ∀ (es : List Ev) (s : St), Alone a b s → (∀ e ∈ es, Others a b e) → Alone a b (run cfg s es).1
  | [], _, h, _ => h
  | e :: es, s, h, he => by
    rw [run_cons]
    exact alone_run es _ (alone_step h e (he e (by simp))) (fun x hx => he x (by simp [hx]))

theorem alone_init : Alone a b init := fun e he => by cases he

/-- the legs, whatever else happened -/
theorem story_alone {x : Story} {t : Nat} {r0 : Response} {addr : Sub.Addr × Nat} {inv : Request}
    (h : x.Calls t r0 addr inv a) : Alone a x.f.callId (run x.cfg init x.events).1 := by
  unfold Story.events
  rw [run_append, run_cons]
  have h0 : Alone a x.f.callId (run x.cfg init x.pre).1 := alone_run x.pre init alone_init (fun e he => h.others e (by simp [he]))
  refine alone_run x.post _ ?_ (fun e he => h.others e (by simp [he]))
  obtain ⟨leg, hp, _, _, _, _, hst⟩ := invite_placed h.call
  obtain ⟨l1, _, l3, _⟩ := placed_leg hp
  rw [hst]
  intro e he
  rcases mem_insert he with rfl | he
  · exact ⟨fun _ => l1, fun e => h.differ ((l3 a h.id).symm.trans e)⟩
  · exact h0 e he

/-- the leg -/
theorem story_shape {x : Story} {t : Nat} {r0 : Response} {addr : Sub.Addr × Nat} {inv : Request}
    (h : x.Calls t r0 addr inv a) :
    ∀ e ∈ (run x.cfg init x.events).1.legs, e.1 = e.2.outId ∧ (e.1 = x.f.callId → Mine x.rq a x.f.callId x.now t e.2) := by
  have hsh := shape_run (rq := x.rq) (now := x.now) x.cfg (M := fun _ => False) (fun _ _ _ h => h) x.pre init shape_init
    (fun e he => h.leaves e (by simp [he]))
  obtain ⟨leg, hp, ht, _, _, _, hst⟩ := invite_placed h.call
  obtain ⟨l1, l2, l3, l4, l5⟩ := placed_leg hp
  have hsh' : Shape (Mine x.rq a x.f.callId x.now t) (some t) a x.f.callId
      (step x.cfg (run x.cfg init x.pre).1 (.invite x.rq x.look x.f x.now x.i)).1 := by
    rw [hst]
    generalize (run x.cfg init x.pre).1 = s at *
    refine ⟨?_, ?_, hsh.cancels, ?_⟩
    · intro e he
      rcases mem_insert he with rfl | he
      · refine ⟨rfl, by simp only; omega, fun _ => ⟨l1, l2.trans ht.symm, l3 a h.id, l4, l5⟩, fun e => absurd l1 e⟩
      · obtain ⟨h1, h2, h3, _⟩ := hsh.legs e he
        refine ⟨h1, by simp only; omega, fun e => absurd (h3 e) id, ?_⟩
        intro _ e
        cases e
        omega
    · intro k c hk
      simp only at hk
      by_cases ek : k = s.next
      · refine ⟨by simp only; omega, fun hne => absurd (by rw [ek, ht]) hne⟩
      · rw [Tbl.get_insert_ne _ _ ek] at hk
        obtain ⟨h1, h2⟩ := hsh.chans k c hk
        exact ⟨by simp only; omega, fun _ => h2 (by simp)⟩
    · intro k hk
      cases hk
      simp only
      omega
  have := shape_run (rq := x.rq) (now := x.now) x.cfg mine_static x.post _ hsh' (fun e he => h.leaves e (by simp [he]))
  unfold Story.events
  rw [run_append, run_cons]
  intro e he
  obtain ⟨h1, _, h3, _⟩ := this.legs e he
  exact ⟨h1, h3⟩

theorem each_length {α β : Type} {R : α → β → Prop} {as : List α} {bs : List β} (h : Each R as bs) : as.length = bs.length := by
  induction h with
  | nil => rfl
  | cons _ _ ih => simp [ih]

theorem upTo_unique {rs u u' : List Response} (h : UpToFinal rs u) (h' : UpToFinal rs u') : u = u' := by
  induction h generalizing u' with
  | nil => cases h'; rfl
  | final h =>
    cases h' with
    | final _ => rfl
    | more h'' _ => omega
  | more h _ ih =>
    cases h' with
    | final h'' => omega
    | more _ h'' => rw [ih h'']

/-- The final response was answered: the leg is gone, or it is the leg of an accepted call. -/
theorem story_answered {x : Story} {t : Nat} {r0 : Response} {addr : Sub.Addr × Nat} {inv : Request} {r : Response}
    (h : x.Calls t r0 addr inv a) (hr : x.Answered t r) :
    ∃ lg, placeCall x.cfg x.look x.f x.now t x.rq = .stored lg ∧ inv = lg.invite ∧ socketOf lg.callee = some addr ∧
      (r.code < 300 → ∃ l, (run x.cfg init x.events).1.legs.get x.f.callId = some l ∧ accepted x.cfg lg r l) ∧
      (300 ≤ r.code → (run x.cfg init x.events).1.legs.get x.f.callId = none) := by
  obtain ⟨lg, hp, hi, hs, _, rs, hrs, hrel⟩ := called (post := x.post) h.me h.ok h.id h.call h.leaves
  refine ⟨lg, hp, hi, hs, ?_⟩
  obtain ⟨arr, done, r0', rs', harr, hup, h200, hans, hlen⟩ := hr
  rw [answers_iff] at hans
  unfold Story.events at hans ⊢
  rw [hrs] at hans
  cases hans
  rw [arrived_iff] at harr
  rw [← harr] at hrel
  cases hrel with
  | going q dn h1 h2 h3 h4 h5 h6 =>
    rw [h3] at hup
    obtain ⟨u, hu, hq⟩ := upTo_append h4 hup
    have e1 := each_length h5
    have e2 := congrArg List.length hu
    simp only [List.length_append, List.length_singleton] at e2
    have hu0 : u = [] := List.length_eq_zero_iff.mp (by omega)
    subst hu0
    rw [List.append_nil] at hu
    have : r.code < 200 := h4 r (by rw [← hu]; simp)
    omega
  | ended q dn r' rest h1 h2 h3 h4 h5 h6 =>
    rw [h2] at hup
    have e := upTo_final h3 h4 hup
    have e' := List.append_inj' e rfl
    have : r = r' := by simpa using e'.2
    subst this
    exact h6

/-- all that an accepted call's leg is -/
theorem accepted_tag {lg l : Leg} {r : Response} {tg : Str} (h : accepted cfg lg r l) (hc : 200 ≤ r.code ∧ r.code < 300)
    (hcid : ∃ v, First lg.caller.headers "Call-ID" v) (hf : ∃ v, First lg.caller.headers "From" v)
    (ht : ∃ v, First lg.caller.headers "To" v) (hq : ∃ v, First lg.caller.headers "CSeq" v) (htag : CalleeTag r tg) : l.tag = some tg := by
  obtain ⟨m, h⟩ := h
  obtain ⟨c, h1⟩ := hcid
  obtain ⟨f, h2⟩ := hf
  obtain ⟨t, h3⟩ := ht
  obtain ⟨q, h4⟩ := hq
  rw [first_iff] at h1 h2 h3 h4
  unfold transform at h
  rw [h1, h2, h3, h4, (calleeTag_some r tg).mpr htag] at h
  simp only [if_pos hc] at h
  rw [← h]
  have key : ∀ hs, (establish cfg lg m f tg hs r).2.1.tag = some tg := by
    intro hs
    unfold establish
    simp only
    split
    · rfl
    · rename_i d _
      cases d with
      | none =>
        simp only
        split <;> rfl
      | some d =>
        simp only
        split <;> rfl
  split
  · rename_i e; exact Eq.mp (congrArg (fun x => x.2.1.tag = some tg) e) (key _)
  · rename_i e; exact Eq.mp (congrArg (fun x => x.2.1.tag = some tg) e) (key _)

end Siphon.Bridge
