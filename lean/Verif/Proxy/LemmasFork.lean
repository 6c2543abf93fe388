import Verif.Proxy.Spec
import Verif.Core.HeadersProps
/-! Lemmas about the context of a fork. -/
set_option linter.unusedSimpArgs false
namespace Siphon.Proxy
open Spec

theorem class_iff (r : Response) (k : Nat) : Class r k ↔ r.code / 100 = k := by
  unfold Class; omega

theorem class_self (r : Response) : Class r (r.code / 100) := (class_iff _ _).mpr rfl

theorem is2xx_iff (r : Response) : is2xx r = true ↔ Class r 2 := by
  simp [is2xx, Class]
theorem is6xx_iff (r : Response) : is6xx r = true ↔ Class r 6 := by
  simp [is6xx, Class]

/-- The comparison `class r < class x` of the specification. -/
theorem lt_class (r x : Response) : (∃ k, Class r k ∧ ∃ j, Class x j ∧ k < j) ↔ r.code / 100 < x.code / 100 := by
  constructor
  · rintro ⟨k, h1, j, h2, h3⟩
    rw [class_iff] at h1 h2; omega
  · intro h; exact ⟨_, class_self r, _, class_self x, h⟩

theorem le_class (r x : Response) : (∃ k, Class r k ∧ ∃ j, Class x j ∧ k ≤ j) ↔ r.code / 100 ≤ x.code / 100 := by
  constructor
  · rintro ⟨k, h1, j, h2, h3⟩
    rw [class_iff] at h1 h2; omega
  · intro h; exact ⟨_, class_self r, _, class_self x, h⟩

/-! ## The best response -/

/-- The best response after one more. -/
def better (cur : Option Response) (r : Response) : Option Response :=
  if selectBest cur r then some r else cur

theorem keeps_single (r : Response) : Keeps [r] r := by
  by_cases h6 : Class r 6
  · exact .inl ⟨h6, [], [], rfl, by simp⟩
  · by_cases h2 : Class r 2
    · exact .inr (.inl ⟨by simpa using h6, h2, [], [], rfl, by simp⟩)
    · exact .inr (.inr ⟨by simpa using ⟨h6, h2⟩, [], [], rfl, by simp, by simp⟩)

theorem keeps_mem {l : List Response} {r : Response} (h : Keeps l r) : r ∈ l := by
  rcases h with ⟨_, p, q, rfl, _⟩ | ⟨_, _, p, q, rfl, _⟩ | ⟨_, p, q, rfl, _⟩ <;> simp

theorem keeps_better {l : List Response} {r : Response} (h : Keeps l r) (x : Response) :
    ∃ y, better (some r) x = some y ∧ Keeps (l ++ [x]) y := by
  by_cases x6 : Class x 6
  · refine ⟨x, ?_, .inl ⟨x6, l, [], by simp, by simp⟩⟩
    simp [better, selectBest, (class_iff x 6).mp x6]
  have x6' : ¬ x.code / 100 = 6 := fun e => x6 ((class_iff _ _).mpr e)
  rcases h with ⟨h6, pre, post, e, hp⟩ | ⟨hno, h2, pre, post, e, hp⟩ | ⟨hno, pre, post, e, hp, hq⟩
  · refine ⟨r, by simp [better, selectBest, x6', (class_iff r 6).mp h6], .inl ⟨h6, pre, post ++ [x], by simp [e], ?_⟩⟩
    intro y hy
    rcases List.mem_append.mp hy with hy | hy
    · exact hp y hy
    · rw [List.mem_singleton.mp hy]; exact x6
  · have hno' : ∀ y ∈ l ++ [x], ¬ Class y 6 := by
      intro y hy
      rcases List.mem_append.mp hy with hy | hy
      · exact hno y hy
      · rw [List.mem_singleton.mp hy]; exact x6
    have r6 : ¬ r.code / 100 = 6 := fun e' => hno r (by rw [e]; simp) ((class_iff _ _).mpr e')
    by_cases x2 : Class x 2
    · refine ⟨x, by simp [better, selectBest, x6', r6, (class_iff x 2).mp x2], .inr (.inl ⟨hno', x2, l, [], rfl, by simp⟩)⟩
    · have x2' : ¬ x.code / 100 = 2 := fun e => x2 ((class_iff _ _).mpr e)
      refine ⟨r, by simp [better, selectBest, x6', r6, x2', (class_iff r 2).mp h2],
        .inr (.inl ⟨hno', h2, pre, post ++ [x], by simp [e], ?_⟩)⟩
      intro y hy
      rcases List.mem_append.mp hy with hy | hy
      · exact hp y hy
      · rw [List.mem_singleton.mp hy]; exact x2
  · have hr := hno r (by rw [e]; simp)
    have r6 : ¬ r.code / 100 = 6 := fun e' => hr.1 ((class_iff _ _).mpr e')
    have r2 : ¬ r.code / 100 = 2 := fun e' => hr.2 ((class_iff _ _).mpr e')
    by_cases x2 : Class x 2
    · refine ⟨x, by simp [better, selectBest, x6', r6, (class_iff x 2).mp x2], .inr (.inl ⟨?_, x2, l, [], rfl, by simp⟩)⟩
      intro y hy
      rcases List.mem_append.mp hy with hy | hy
      · exact (hno y hy).1
      · rw [List.mem_singleton.mp hy]; exact x6
    · have x2' : ¬ x.code / 100 = 2 := fun e => x2 ((class_iff _ _).mpr e)
      have hno' : ∀ y ∈ l ++ [x], ¬ Class y 6 ∧ ¬ Class y 2 := by
        intro y hy
        rcases List.mem_append.mp hy with hy | hy
        · exact hno y hy
        · rw [List.mem_singleton.mp hy]; exact ⟨x6, x2⟩
      have hle : ∀ y ∈ l, r.code / 100 ≤ y.code / 100 := by
        intro y hy
        rw [e] at hy
        rcases List.mem_append.mp hy with hy | hy
        · have := (lt_class _ _).mp (hp y hy); omega
        · rcases List.mem_cons.mp hy with rfl | hy
          · omega
          · exact (le_class _ _).mp (hq y hy)
      by_cases hlt : x.code / 100 < r.code / 100
      · refine ⟨x, by simp [better, selectBest, x6', r6, x2', r2, hlt], .inr (.inr ⟨hno', l, [], rfl, ?_, by simp⟩)⟩
        intro y hy
        exact (lt_class _ _).mpr (by have := hle y hy; omega)
      · refine ⟨r, by simp [better, selectBest, x6', r6, x2', r2, hlt],
          .inr (.inr ⟨hno', pre, post ++ [x], by simp [e], hp, ?_⟩)⟩
        intro y hy
        rcases List.mem_append.mp hy with hy | hy
        · exact hq y hy
        · rw [List.mem_singleton.mp hy]
          exact (le_class _ _).mpr (by omega)

/-- The state of the best response that fits a history of final responses. -/
def BestOf (l : List Response) : Option Response → Prop
  | none => l = []
  | some r => Keeps l r

theorem bestOf_better {l : List Response} {o : Option Response} (h : BestOf l o) (x : Response) :
    BestOf (l ++ [x]) (better o x) := by
  cases o with
  | none =>
    have h' : l = [] := h
    subst h'
    exact keeps_single x
  | some r =>
    obtain ⟨y, e, hy⟩ := keeps_better h x
    rw [e]; exact hy

/-! ## One final response -/

/-- Everything but the timers and the channel. -/
def SameCore (a b : Ctx) : Prop :=
  a.original = b.original ∧ a.proxyHost = b.proxyHost ∧ a.transport = b.transport ∧ a.branches = b.branches ∧
  a.bestFinal = b.bestFinal ∧ a.outstanding = b.outstanding ∧ a.terminated = b.terminated

theorem SameCore.rfl' (a : Ctx) : SameCore a a := ⟨rfl, rfl, rfl, rfl, rfl, rfl, rfl⟩

/-- The branches after the response: the one that answered, and perhaps the others cancelled. -/
def answered (c : Ctx) (id : Str) (r : Response) : Tbl Str Branch := c.branches.update id (·.next r)

/-- The branches other than the winner that were open are cancelled. -/
def cancelRest (t : Tbl Str Branch) (winner : Str) : Tbl Str Branch :=
  t.map (fun e => if e.1 ≠ winner ∧ e.2.state.isOpen then (e.1, { e.2 with state := .cancelled }) else e)

theorem keys_cancelRest (t : Tbl Str Branch) (w : Str) : (cancelRest t w).keys = t.keys := by
  unfold cancelRest Tbl.keys
  rw [List.map_map]
  apply List.map_congr_left
  intro e _
  simp only [Function.comp]
  split <;> rfl

theorem length_cancelRest (t : Tbl Str Branch) (w : Str) : (cancelRest t w).length = t.length := by
  simp [cancelRest]

theorem get_cancelRest (t : Tbl Str Branch) (w k : Str) :
    (cancelRest t w).get k =
      (t.get k).map (fun b => if k ≠ w ∧ b.state.isOpen then { b with state := .cancelled } else b) := by
  induction t with
  | nil => rfl
  | cons e t ih =>
    have hc : cancelRest (e :: t) w =
      (e.1, if e.1 ≠ w ∧ e.2.state.isOpen then { e.2 with state := .cancelled } else e.2) :: cancelRest t w := by
      simp only [cancelRest, List.map_cons]
      congr 1
      split <;> rfl
    rw [hc, show e = (e.1, e.2) from rfl, Tbl.get_cons, Tbl.get_cons]
    by_cases hk : e.1 = k
    · rw [if_pos hk, if_pos hk]; simp [hk]
    · rw [if_neg hk, if_neg hk]; exact ih

theorem selectBest_6xx (o : Option Response) (r : Response) (h : is6xx r = true) : selectBest o r = true := by
  have : r.code / 100 = 6 := (class_iff _ _).mp ((is6xx_iff _).mp h)
  cases o <;> simp [selectBest, this]

/-- What a final response does to a context that knows the branch. -/
theorem process_final (c : Ctx) (id : Str) (r : Response) (hk : id ∈ c.branches.keys) (hf : 200 ≤ r.code) :
    ∃ o c', c.processResponse id r = (o, c') ∧
      c'.original = c.original ∧ c'.proxyHost = c.proxyHost ∧ c'.transport = c.transport ∧
      c'.armed = c.armed ∧ c'.channel = c.channel ∧
      c'.bestFinal = better c.bestFinal r ∧ c'.outstanding = c.outstanding - 1 ∧
      c'.terminated = (c.terminated || is6xx r) ∧
      c'.branches = (if selectBest c.bestFinal r ∧ (is2xx r ∨ is6xx r) then cancelRest (answered c id r) id
        else answered c id r) ∧
      (if selectBest c.bestFinal r ∧ (is2xx r ∨ is6xx r) then o = some r
       else o = ({ c with branches := answered c id r, bestFinal := better c.bestFinal r, outstanding := c.outstanding - 1 } : Ctx).result) := by
  have hfin : isFinal r = true := by simp [isFinal, hf]
  have hget : ∃ b, c.branches.get id = some b := Option.isSome_iff_exists.mp ((Tbl.get_isSome_iff _ _).mpr hk)
  obtain ⟨b, hb⟩ := hget
  have harm : (if 100 ≤ r.code ∧ r.code < 200 ∧ b.state = .trying then c.armed ++ [id] else c.armed) = c.armed := by
    rw [if_neg (by omega)]
  have ht : c.touch id r = some { c with branches := answered c id r } := by
    simp only [Ctx.touch, hb, harm]
    rfl
  unfold Ctx.processResponse
  rw [ht]
  simp only [hfin, Bool.not_true, Bool.false_eq_true, if_false]
  cases hs : selectBest c.bestFinal r with
  | false =>
    have h6 : is6xx r = false := by
      cases h : is6xx r with
      | false => rfl
      | true => rw [selectBest_6xx _ _ h] at hs; cases hs
    simp only [Ctx.settle, Ctx.choose, hs, Bool.false_eq_true, if_false, Bool.false_and]
    refine ⟨_, _, rfl, ?_⟩
    simp [hs, better, h6]
  | true =>
    cases h2 : is2xx r with
    | true =>
      have h6 : is6xx r = false := by
        cases h : is6xx r with
        | false => rfl
        | true =>
          have a := (is2xx_iff _).mp h2
          have b := (is6xx_iff _).mp h
          simp only [Class] at a b
          omega
      simp only [Ctx.settle, Ctx.choose, hs, h2, if_true, Bool.true_and]
      refine ⟨_, _, rfl, ?_⟩
      simp [hs, better, h6, h2, Ctx.cancelOthers, cancelRest]
    | false =>
      cases h6 : is6xx r with
      | true =>
        simp only [Ctx.settle, Ctx.choose, hs, h2, h6, if_true, Bool.true_and, Bool.false_eq_true, if_false]
        refine ⟨_, _, rfl, ?_⟩
        simp [hs, better, h6, h2, Ctx.cancelOthers, cancelRest]
      | false =>
        simp only [Ctx.settle, Ctx.choose, hs, h2, h6, if_true, Bool.true_and, Bool.false_eq_true, if_false]
        refine ⟨_, _, rfl, ?_⟩
        simp [hs, better, h6, h2]

/-- What a provisional response does. -/
theorem process_provisional (c : Ctx) (id : Str) (r : Response) (hk : id ∈ c.branches.keys) (hf : r.code < 200) :
    ∃ arm, c.processResponse id r = (some r, { c with branches := answered c id r, armed := arm }) := by
  have hfin : isFinal r = false := by simp [isFinal]; omega
  obtain ⟨b, hb⟩ := Option.isSome_iff_exists.mp ((Tbl.get_isSome_iff _ _).mpr hk)
  refine ⟨if 100 ≤ r.code ∧ r.code < 200 ∧ b.state = .trying then c.armed ++ [id] else c.armed, ?_⟩
  unfold Ctx.processResponse
  simp only [Ctx.touch, hb, hfin]
  rfl

theorem process_unknown (c : Ctx) (id : Str) (r : Response) (hk : id ∉ c.branches.keys) :
    c.processResponse id r = (none, c) := by
  unfold Ctx.processResponse Ctx.touch
  rw [(Tbl.get_eq_none_iff _ _).mpr hk]

/-! ## One call -/

theorem synthetic_code {code : Nat} {reason : String} {q : Request} {r : Response}
    (h : synthetic code reason q = some r) : r.code = code := by
  unfold synthetic at h
  simp only at h
  split at h
  · rename_i x hx
    cases h
    unfold Response.new at hx
    split at hx
    · cases hx
    · split at hx
      · cases hx
      · split at hx
        · cases hx
        · cases hx; rfl
  · cases h

/-- The call delivers this final response. -/
theorem step_final (c : Ctx) (op : Op) (id : Str) (r : Response) (h : taken1 c op = some (id, r)) :
    id ∈ c.branches.keys ∧ 200 ≤ r.code ∧ NotAdd op ∧
    ∃ c1 c2, SameCore c c1 ∧ c1.processResponse id r = ((c.step op).1, c2) ∧ SameCore c2 (c.step op).2 := by
  cases op with
  | add _ _ => simp [taken1] at h
  | response id' r' =>
    simp only [taken1] at h
    split at h
    · rename_i hc
      cases h
      exact ⟨hc.1, hc.2, trivial, c, _, SameCore.rfl' c, rfl, SameCore.rfl' _⟩
    · cases h
  | timerC id' =>
    simp only [taken1] at h
    split at h
    · rename_i b r' hb hr
      split at h
      · rename_i hc
        cases h
        have hcode := synthetic_code hr
        have hk : id ∈ c.branches.keys := (Tbl.get_isSome_iff _ _).mp (by rw [hb]; rfl)
        refine ⟨hk, by omega, trivial, { c with armed := c.armed.erase id }, ?_⟩
        obtain ⟨o, c2, he, e1, e2, e3, e4, e5, e6⟩ :=
          process_final { c with armed := c.armed.erase id } id r hk (by omega)
        refine ⟨c2, ⟨rfl, rfl, rfl, rfl, rfl, rfl, rfl⟩, ?_⟩
        have hcon : c.armed.contains id = true := by simpa using hc.1
        have ht : c.timerC id = (match o with | some f => { c2 with channel := c2.channel ++ [f] } | none => c2) := by
          unfold Ctx.timerC
          rw [if_pos hcon]
          simp only [hb]
          rw [if_neg (by simp [hc.2])]
          simp only [hr, he]
          cases o <;> rfl
        have hch : c2.channel = c.channel := e5
        cases o with
        | none =>
          have h1 : (c.step (.timerC id)).1 = none := by
            simp only [Ctx.step, ht]
            rw [hch]; simp
          have h2 : (c.step (.timerC id)).2 = c2 := ht
          rw [h1, h2]
          exact ⟨he, SameCore.rfl' _⟩
        | some f =>
          have h1 : (c.step (.timerC id)).1 = some f := by
            simp only [Ctx.step, ht]
            rw [hch]; simp
          have h2 : (c.step (.timerC id)).2 = { c2 with channel := c2.channel ++ [f] } := ht
          rw [h1, h2]
          exact ⟨he, ⟨rfl, rfl, rfl, rfl, rfl, rfl, rfl⟩⟩
      · cases h
    · cases h
  | transportError id' =>
    simp only [taken1] at h
    split at h
    · rename_i b r' hb hr
      split at h
      · rename_i hc
        cases h
        have hcode := synthetic_code hr
        have hk : id ∈ c.branches.keys := (Tbl.get_isSome_iff _ _).mp (by rw [hb]; rfl)
        refine ⟨hk, by omega, trivial, c, ?_⟩
        obtain ⟨o, c2, he, _⟩ := process_final c id r hk (by omega)
        refine ⟨c2, SameCore.rfl' c, ?_⟩
        have hop : b.state.isOpen = true := by
          obtain ⟨tg, st, bs⟩ := b
          cases st <;> simp_all [BranchState.isOpen]
        have ht : c.transportError id = (o, (match o with | some f => { c2 with channel := c2.channel ++ [f] } | none => c2)) := by
          unfold Ctx.transportError
          simp only [hb, hop, Bool.not_true, Bool.false_eq_true, if_false, hr, he]
          cases o <;> rfl
        cases o with
        | none =>
          have h1 : c.step (.transportError id) = (none, c2) := ht
          rw [h1]
          exact ⟨he, SameCore.rfl' _⟩
        | some f =>
          have h1 : c.step (.transportError id) = (some f, { c2 with channel := c2.channel ++ [f] }) := ht
          rw [h1]
          exact ⟨he, ⟨rfl, rfl, rfl, rfl, rfl, rfl, rfl⟩⟩
      · cases h
    · cases h

/-- The call delivers no final response and adds no branch: at most a provisional response goes upstream, and
only states of branches change. -/
theorem step_other (c : Ctx) (op : Op) (hn : NotAdd op) (h : taken1 c op = none) :
    (∀ f, (c.step op).1 = some f → f.code < 200) ∧
    (c.step op).2.original = c.original ∧ (c.step op).2.proxyHost = c.proxyHost ∧
    (c.step op).2.transport = c.transport ∧ (c.step op).2.branches.keys = c.branches.keys ∧
    (c.step op).2.branches.map (fun e => (e.1, e.2.target)) = c.branches.map (fun e => (e.1, e.2.target)) ∧
    (c.step op).2.bestFinal = c.bestFinal ∧ (c.step op).2.outstanding = c.outstanding ∧
    (c.step op).2.terminated = c.terminated := by
  cases op with
  | add _ _ => exact hn.elim
  | response id r =>
    simp only [taken1] at h
    by_cases hk : id ∈ c.branches.keys
    · have hf : r.code < 200 := by
        by_cases hf : 200 ≤ r.code
        · rw [if_pos ⟨hk, hf⟩] at h; cases h
        · omega
      obtain ⟨arm, e⟩ := process_provisional c id r hk hf
      have e' : c.step (.response id r) = (some r, { c with branches := answered c id r, armed := arm }) := e
      rw [e']
      refine ⟨?_, rfl, rfl, rfl, (by simp only [answered, Tbl.keys_update]), ?_, rfl, rfl, rfl⟩
      · intro f hff; cases hff; exact hf
      · simp only [answered, Tbl.update, List.map_map]
        apply List.map_congr_left
        intro e _
        simp only [Function.comp]
        split <;> rfl
    · have e' : c.step (.response id r) = (none, c) := process_unknown c id r hk
      rw [e']
      exact ⟨by simp, rfl, rfl, rfl, rfl, rfl, rfl, rfl, rfl⟩
  | timerC id =>
    suffices hs : (c.timerC id).channel = c.channel ∧ SameCore (c.timerC id) c by
      obtain ⟨h1, a1, a2, a3, a4, a5, a6, a7⟩ := hs
      refine ⟨?_, a1, a2, a3, ?_, ?_, a5, a6, a7⟩
      · intro f hf
        simp only [Ctx.step, h1] at hf
        simp at hf
      · show (c.timerC id).branches.keys = _
        rw [a4]
      · show (c.timerC id).branches.map _ = _
        rw [a4]
    unfold Ctx.timerC
    by_cases hcon : c.armed.contains id = true
    · rw [if_pos hcon]
      simp only
      cases hb : c.branches.get id with
      | none => exact ⟨rfl, rfl, rfl, rfl, rfl, rfl, rfl, rfl⟩
      | some b =>
        simp only
        by_cases hp : b.state = .proceeding
        · rw [if_neg (by simp [hp])]
          cases hr : synthetic 408 "Request Timeout" c.original with
          | none => exact ⟨rfl, rfl, rfl, rfl, rfl, rfl, rfl, rfl⟩
          | some r =>
            exfalso
            simp only [taken1, hb, hr] at h
            rw [if_pos ⟨by simpa using hcon, hp⟩] at h
            cases h
        · rw [if_pos (by simpa using hp)]
          exact ⟨rfl, rfl, rfl, rfl, rfl, rfl, rfl, rfl⟩
    · rw [if_neg hcon]
      exact ⟨rfl, SameCore.rfl' c⟩
  | transportError id =>
    have hs : c.transportError id = (none, c) := by
      unfold Ctx.transportError
      cases hb : c.branches.get id with
      | none => rfl
      | some b =>
        simp only
        by_cases hop : b.state.isOpen = true
        · cases hr : synthetic 503 "Service Unavailable" c.original with
          | none => simp [hop]
          | some r =>
            exfalso
            simp only [taken1, hb, hr] at h
            rw [if_pos (by obtain ⟨tg, st, bs⟩ := b; cases st <;> simp_all [BranchState.isOpen])] at h
            cases h
        · simp [hop]
    have e' : c.step (.transportError id) = (none, c) := hs
    rw [e']
    exact ⟨by simp, rfl, rfl, rfl, rfl, rfl, rfl, rfl, rfl⟩

/-- Adding a branch. -/
theorem step_add (c : Ctx) (id t : Str) :
    (c.step (.add id t)).1 = none ∧
    ((c.step (.add id t)).2 = c ∨
     (c.terminated = false ∧ c.branches.length < 50 ∧
      (c.step (.add id t)).2 = { c with branches := c.branches.insert id { target := t, state := .trying, best := none }, outstanding := c.outstanding + 1 })) := by
  simp only [Ctx.step]
  by_cases hv : validBranchId id = true
  · rw [if_pos hv]
    refine ⟨rfl, ?_⟩
    unfold Ctx.addBranch
    by_cases ht : c.terminated = true
    · rw [if_pos ht]; exact .inl rfl
    · rw [if_neg ht]
      unfold Ctx.insertBranch
      by_cases hl : c.branches.length ≥ MAX_BRANCHES_PER_CONTEXT
      · rw [if_pos hl]; exact .inl rfl
      · rw [if_neg hl]
        exact .inr ⟨by simpa using ht, by simp only [MAX_BRANCHES_PER_CONTEXT] at hl; omega, rfl⟩
  · rw [if_neg hv]; exact ⟨rfl, .inl rfl⟩

theorem SameCore.result {a b : Ctx} (h : SameCore a b) : a.result = b.result := by
  obtain ⟨_, _, _, h4, h5, h6, _⟩ := h
  unfold Ctx.result Ctx.aggregate
  rw [h4, h5, h6]

/-- What a call that delivers a final response does, in terms of the context before. -/
theorem step_final_effect (c : Ctx) (op : Op) (id : Str) (r : Response) (h : taken1 c op = some (id, r)) :
    id ∈ c.branches.keys ∧ 200 ≤ r.code ∧ NotAdd op ∧
      (c.step op).2.original = c.original ∧ (c.step op).2.proxyHost = c.proxyHost ∧
      (c.step op).2.transport = c.transport ∧
      (c.step op).2.bestFinal = better c.bestFinal r ∧ (c.step op).2.outstanding = c.outstanding - 1 ∧
      (c.step op).2.terminated = (c.terminated || is6xx r) ∧
      (c.step op).2.branches = (if selectBest c.bestFinal r ∧ (is2xx r ∨ is6xx r) then cancelRest (answered c id r) id
        else answered c id r) ∧
      (if selectBest c.bestFinal r ∧ (is2xx r ∨ is6xx r) then (c.step op).1 = some r
       else (c.step op).1 = ({ c with branches := answered c id r, bestFinal := better c.bestFinal r, outstanding := c.outstanding - 1 } : Ctx).result) := by
  obtain ⟨hk, hf, hn, c1, c2, ⟨s1, s2, s3, s4, s5, s6, s7⟩, he, t1, t2, t3, t4, t5, t6, t7⟩ := step_final c op id r h
  obtain ⟨o, c', e, f1, f2, f3, f4, f5, f6, f7, f8, f9, f10⟩ := process_final c1 id r (s4 ▸ hk) hf
  rw [he] at e
  obtain ⟨rfl, rfl⟩ := Prod.mk.inj e
  have ha : answered c1 id r = answered c id r := by unfold answered; rw [s4]
  refine ⟨hk, hf, hn, by rw [← t1, f1, s1], by rw [← t2, f2, s2], by rw [← t3, f3, s3],
    by rw [← t5, f6, s5], by rw [← t6, f7, s6], by rw [← t7, f8, s7], by rw [← t4, f9, ha, s5], ?_⟩
  rw [← s5] at f10
  by_cases hc : selectBest c.bestFinal r = true ∧ (is2xx r = true ∨ is6xx r = true)
  · rw [if_pos hc] at f10 ⊢; exact f10
  · rw [if_neg hc] at f10 ⊢
    rw [f10]
    apply SameCore.result
    exact ⟨s1.symm, s2.symm, s3.symm, ha, by rw [s5], by rw [s6], s7.symm⟩

end Siphon.Proxy
