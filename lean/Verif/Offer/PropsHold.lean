import Verif.Offer.LemmasPre
/-!
# C124 and C125: hold and resume; preconditions
-/
namespace Siphon.Offer
open Siphon.TextSpec Spec

/-! ## C124 -/

/-- Not a direction. -/
def notDir (a : Attr) : Bool := a.value.isSome || (Dir.parse a.name).isNone

theorem notDir_iff (a : Attr) : notDir a = true ↔ ∀ d, ¬ IsDir a d := by
  unfold notDir
  simp only [isDir_iff]
  cases hv : a.value with
  | some v => simp
  | none =>
    cases hp : Dir.parse a.name with
    | none => simp
    | some d =>
      simp only [Option.isSome_none, Option.isNone_some, Bool.or_self, Bool.false_eq_true, false_iff, not_forall, Decidable.not_not]
      exact ⟨Pair d, trivial, d, rfl, rfl⟩

theorem others_filter (as : List Attr) : Others as (as.filter notDir) := by
  induction as with
  | nil => exact .nil
  | cons a as ih =>
    by_cases h : notDir a = true
    · rw [List.filter_cons_of_pos h]
      exact .keep ((notDir_iff a).mp h) ih
    · rw [List.filter_cons_of_neg h]
      have : ∃ d, IsDir a d := by
        apply Classical.byContradiction
        intro hc
        exact h ((notDir_iff a).mpr (fun d hd => hc ⟨d, hd⟩))
      obtain ⟨d, hd⟩ := this
      exact .drop hd ih

theorem filter_twice (as : List Attr) : (as.filter notDir).filter notDir = as.filter notDir := by simp [List.filter_filter]

theorem isDir_asStr (d : Dir) : IsDir ⟨d.asStr, none⟩ (Pair d) := (isDir_iff _ _).mpr ⟨rfl, d, parse_asStr d, rfl⟩

theorem declares_set (as : List Attr) (d : Dir) : Declares (as.filter notDir ++ [(⟨d.asStr, none⟩ : Attr)]) (Pair d) := by
  induction as with
  | nil => exact (declares_cons_dir [] (isDir_asStr d) _).mpr rfl
  | cons a as ih =>
    by_cases h : notDir a = true
    · rw [List.filter_cons_of_pos h, List.cons_append]
      exact (declares_cons_other _ ((notDir_iff a).mp h) _).mpr ih
    · rw [List.filter_cons_of_neg h]
      exact ih

theorem notDir_asStr (d : Dir) : notDir ⟨d.asStr, none⟩ = false := by cases d <;> decide

theorem redirected (d : Dir) (m : Media) : Redirected m (setDirection d m) (Pair d) := by
  refine ⟨declares_set m.attributes d, ⟨m.attributes.filter notDir, others_filter _, ?_⟩, rfl⟩
  have := others_filter (m.attributes.filter notDir ++ [(⟨d.asStr, none⟩ : Attr)])
  rw [List.filter_append, filter_twice, List.filter_cons_of_neg (by rw [notDir_asStr]; decide)] at this
  rw [List.filter_nil, List.append_nil] at this
  exact this

theorem next_iff (v v' : Str) : nextVersion v = .done v' ↔ Next v v' := by
  unfold nextVersion Next
  constructor
  · intro h
    split at h
    · next hp =>
      cases h
      refine Or.inr ⟨fun n hn hd => ?_, rfl⟩
      rw [(parseDec_iff _ _ n).mpr ⟨hd, by omega⟩] at hp
      cases hp
    · next n hp =>
      split at h
      · cases h
      · next hn =>
        cases h
        exact Or.inl ⟨n, ((parseDec_iff _ _ _).mp hp).1, by omega, rfl⟩
  · rintro (⟨n, hd, hn, rfl⟩ | ⟨h, rfl⟩)
    · rw [(parseDec_iff _ _ n).mpr ⟨hd, by omega⟩]
      simp only
      rw [if_neg (by omega)]
    · have : parseDec 18446744073709551615 v' = none := by
        cases hp : parseDec 18446744073709551615 v' with
        | none => rfl
        | some n =>
          obtain ⟨h1, h2⟩ := (parseDec_iff _ _ _).mp hp
          exact absurd h1 (h n (by omega))
      rw [this]

theorem redirect_changed (f : Dir → Dir) (g : Bool × Bool → Bool × Bool) (hg : ∀ d, Pair (f d) = g (Pair d)) (s s' : Session)
    (h : redirect f s = .done s') : Changed g s s' := by
  unfold redirect at h
  cases hv : nextVersion s.origin.sessVersion with
  | panic => rw [hv] at h; cases h
  | done v =>
    rw [hv] at h
    cases h
    refine ⟨(next_iff _ _).mp hv, rfl, ?_⟩
    simp only
    generalize s.media = ms
    induction ms with
    | nil => exact .nil
    | cons m ms ih =>
      refine .cons ?_ ih
      intro d hd
      rw [(declares_iff _ _).mp hd, ← hg]
      exact redirected _ _

/-- C124: holding.  Nothing changes but the version, which goes up by one, and the directions: no stream is received any
more, and what was sent is still sent. -/
theorem C124_hold (s s' : Session) (h : holdOffer s = .done s') : Changed (fun d => (d.1, false)) s s' :=
  redirect_changed _ _ (by intro d; cases d <;> rfl) s s' h

/-- C124: resuming.  Nothing changes but the version and the directions: every stream is received, and what was sent is
still sent. -/
theorem C124_resume (s s' : Session) (h : resumeOffer s = .done s') : Changed (fun d => (d.1, true)) s s' :=
  redirect_changed _ _ (by intro d; cases d <;> rfl) s s' h

theorem redirect_panics (f : Dir → Dir) (s : Session) :
    redirect f s = .panic ↔ Decimal s.origin.sessVersion (2 ^ 64 - 1) := by
  have : redirect f s = .panic ↔ nextVersion s.origin.sessVersion = .panic := by
    unfold redirect
    cases nextVersion s.origin.sessVersion with
    | panic => simp [Run.bind]
    | done v => simp [Run.bind]
  rw [this]
  unfold nextVersion
  constructor
  · intro h
    split at h
    · cases h
    · next n hp =>
      split at h
      · next hn =>
        obtain ⟨h1, h2⟩ := (parseDec_iff _ _ _).mp hp
        have : n = 2 ^ 64 - 1 := by omega
        rwa [this] at h1
      · cases h
  · intro h
    rw [(parseDec_iff 18446744073709551615 _ _).mpr ⟨h, by omega⟩]
    simp

/-- C124: both fail only when the version is the greatest number there is; then they panic. -/
theorem C124_panics_iff (s : Session) :
    (holdOffer s = .panic ↔ Decimal s.origin.sessVersion (2 ^ 64 - 1)) ∧
    (resumeOffer s = .panic ↔ Decimal s.origin.sessVersion (2 ^ 64 - 1)) := ⟨redirect_panics _ _, redirect_panics _ _⟩

/-- C124: held and resumed, a stream has the direction that it had before if it was received before.  A stream that was
not received is received afterwards (finding). -/
theorem C124_hold_resume (s s1 s2 : Session) (h1 : holdOffer s = .done s1) (h2 : resumeOffer s1 = .done s2) (j : Nat) (m m2 : Media)
    (hm : s.media[j]? = some m) (hm2 : s2.media[j]? = some m2) (d : Bool × Bool) (hd : Declares m.attributes d) :
    Declares m2.attributes (d.1, true) ∧ ∃ bs, Others m.attributes bs ∧ Others m2.attributes bs := by
  have c1 := C124_hold s s1 h1
  have c2 := C124_resume s1 s2 h2
  have get2 : ∀ {R : Media → Media → Prop} {l l' : List Media}, List.Forall₂ R l l' → ∀ (j : Nat) (x : Media), l[j]? = some x →
      ∃ y, l'[j]? = some y ∧ R x y := by
    intro R l l' h
    induction h with
    | nil => intro j x hx; cases hx
    | cons hr _ ih =>
      intro j x hx
      cases j with
      | zero => cases hx; exact ⟨_, rfl, hr⟩
      | succ j => exact ih j x hx
  obtain ⟨m1, e1, r1⟩ := get2 c1.media j m hm
  obtain ⟨m2', e2, r2⟩ := get2 c2.media j m1 e1
  rw [hm2] at e2
  cases e2
  obtain ⟨d1, ⟨bs, o1, o1'⟩, _⟩ := r1 d hd
  obtain ⟨d2, ⟨cs, o2, o2'⟩, _⟩ := r2 _ d1
  refine ⟨d2, bs, o1, ?_⟩
  have uniq : ∀ {as xs ys : List Attr}, Others as xs → Others as ys → xs = ys := by
    intro as xs ys hx
    induction hx generalizing ys with
    | nil => intro hy; cases hy; rfl
    | keep h _ ih =>
      intro hy
      cases hy with
      | keep _ hy => rw [ih hy]
      | drop hd _ => exact absurd hd (h _)
    | drop h _ ih =>
      intro hy
      cases hy with
      | keep hd _ => exact absurd h (hd _)
      | drop _ hy => exact ih hy
  rw [uniq o1' o2]
  exact o2'

/-! ## C125 -/

theorem enough_iff (c w : Way) : meets c w = true ↔ Enough c w := by
  cases c <;> cases w <;> simp [meets, Enough, Dirs]

theorem find_first (cs : List Curr) (d : Des) (c : Curr) :
    cs.find? (fun c => c.kind = d.kind && c.status = d.status) = some c ↔
      First (fun c x => x = c ∧ c.kind = d.kind ∧ c.status = d.status) cs c := by
  induction cs with
  | nil => simp [First]
  | cons a cs ih =>
    by_cases h : a.kind = d.kind ∧ a.status = d.status
    · rw [List.find?_cons_of_pos (by simp [h])]
      rw [first_cons_some a cs a ⟨rfl, h⟩ (fun y hy => hy.1)]
      simp [eq_comm]
    · rw [List.find?_cons_of_neg (by simpa using h), ih, first_cons_none a cs (fun x hx => h hx.2)]

/-- C125: the preconditions of a stream are met when every mandatory one that it desires has a current status, the first one
of its kind, that reserves what is desired. -/
theorem C125_met_iff (as : List Attr) (cs : List Curr) (ds : List Des) (hc : Listed "curr" CurrText as cs)
    (hd : Listed "des" DesText as ds) :
    preconditionsMet as = true ↔ ∀ d ∈ ds, d.strength = .mandatory →
      ∃ c, First (fun c x => x = c ∧ c.kind = d.kind ∧ c.status = d.status) cs c ∧ Enough c.way d.way := by
  have hc := (currs_iff _ _ _).mp hc
  have hd := (deses_iff _ _).mp hd
  unfold preconditionsMet
  rw [hc, hd, List.all_eq_true]
  refine forall_congr' (fun d => forall_congr' (fun _ => ?_))
  split
  · next h => simp [h]
  · next h =>
    have h : d.strength = .mandatory := by simpa using h
    simp only [h, true_implies]
    constructor
    · intro hm
      split at hm
      · next c hf => exact ⟨c, (find_first _ _ _).mp hf, (enough_iff _ _).mp hm⟩
      · cases hm
    · rintro ⟨c, hf, he⟩
      rw [(find_first _ _ _).mpr hf]
      exact (enough_iff _ _).mpr he

/-- C125: what is written is read back. -/
theorem C125_curr_roundtrip (c : Curr) (h : Spelled c.kind) : Curr.parse c.show = some c := (curr_iff _ _).mpr (curr_show c h)
theorem C125_des_roundtrip (d : Des) (h : Spelled d.kind) : Des.parse d.show = some d := (des_iff _ _).mpr (des_show d h)

/-- C125: what can be read, and nothing else. -/
theorem C125_curr_iff (v : Str) (c : Curr) : Curr.parse v = some c ↔ CurrText v c := curr_iff v c
theorem C125_des_iff (v : Str) (d : Des) : Des.parse v = some d ↔ DesText v d := des_iff v d

theorem opposite_e2e {s : Status} (h : Opposite .e2e s) : s = .e2e := by cases h; rfl

theorem turned_enough {a b a' b' : Way} (h1 : Turned a a') (h2 : Turned b b') : Enough a b ↔ Enough a' b' := by
  unfold Turned at *
  unfold Enough
  rw [h1, h2]
  exact And.comm

theorem answers_first {o : Options} {cs cs' : List Curr} (h : Answers (·.kind) (CurrAnswer o) cs cs')
    (he : ∀ c ∈ cs, c.status = .e2e) (w : Way) :
    (∃ c, First (fun c x => x = c ∧ c.kind = .qos ∧ c.status = .e2e) cs c ∧ Enough c.way w) ↔
    (∀ w', Turned w w' → ∃ c, First (fun c x => x = c ∧ c.kind = .qos ∧ c.status = .e2e) cs' c ∧ Enough c.way w') := by
  induction h with
  | nil =>
    constructor
    · rintro ⟨c, ⟨pre, a, post, e, _⟩, _⟩
      simp at e
    · intro h
      obtain ⟨c, ⟨pre, a, post, e, _⟩, _⟩ := h w.invert (turned w)
      simp at e
  | @take x y xs ys hr _ ih =>
    obtain ⟨k1, k2, op, te, _⟩ := hr
    have hx := he x (by simp)
    have hy : y.status = .e2e := opposite_e2e (hx ▸ op)
    have hxy := te hy
    have f1 := first_cons_some (P := fun c x => x = c ∧ c.kind = .qos ∧ c.status = .e2e) x xs x ⟨rfl, k1, hx⟩ (fun z hz => hz.1)
    have f2 := first_cons_some (P := fun c x => x = c ∧ c.kind = .qos ∧ c.status = .e2e) y ys y ⟨rfl, k2, hy⟩ (fun z hz => hz.1)
    constructor
    · rintro ⟨c, hc, hen⟩ w' hw
      rw [(f1 c).mp hc] at hen
      exact ⟨y, (f2 y).mpr rfl, (turned_enough hxy hw).mp hen⟩
    · intro h
      obtain ⟨c, hc, hen⟩ := h w.invert (turned w)
      rw [(f2 c).mp hc] at hen
      exact ⟨x, (f1 x).mpr rfl, (turned_enough hxy (turned w)).mpr hen⟩
  | @skip x xs ys hk _ ih =>
    have ih := ih (fun c hc => he c (by simp [hc]))
    rw [← ih]
    have f1 := first_cons_none (P := fun c x => x = c ∧ c.kind = .qos ∧ c.status = .e2e) x xs (fun z hz => hk hz.2.1)
    simp only [f1]

/-- C125: for preconditions on the whole path, the offer and the answer agree on whether they are met: the answerer sees
them met exactly when the offerer does, unless optional ones are made mandatory. -/
theorem C125_e2e_agrees (o : Options) (m a : Media) (port : Nat) (h : Takes o m a port) (cs : List Curr) (ds : List Des)
    (hc : Listed "curr" CurrText m.attributes cs) (hd : Listed "des" DesText m.attributes ds)
    (ec : ∀ c ∈ cs, c.status = .e2e) (ed : ∀ d ∈ ds, d.kind = .qos ∧ d.status = .e2e) (hu : o.upgrade = false) :
    preconditionsMet a.attributes = preconditionsMet m.attributes := by
  obtain ⟨cs', hc', ac⟩ := h.curr cs hc
  obtain ⟨ds', hd', ad⟩ := h.des ds hd
  rw [Bool.eq_iff_iff, C125_met_iff _ _ _ hc hd, C125_met_iff _ _ _ hc' hd']
  clear hd hd' hc hc' h
  induction ad with
  | nil => simp
  | @take x y xs ys hr _ ih =>
    have ih := ih (fun d hd => ed d (by simp [hd]))
    obtain ⟨k1, k2, op, tw, st⟩ := hr
    have hx := (ed x (by simp)).2
    have hy : y.status = .e2e := opposite_e2e (hx ▸ op)
    have hst : y.strength = x.strength := by
      rcases st with ⟨h, _⟩ | ⟨_, h⟩
      · rw [hu] at h; cases h
      · exact h
    simp only [List.mem_cons, forall_eq_or_imp]
    rw [ih, hst, k1, k2, hx, hy]
    have := answers_first ac ec x.way
    have key : (∃ c, First (fun c x => x = c ∧ c.kind = .qos ∧ c.status = .e2e) cs' c ∧ Enough c.way y.way) ↔
        (∃ c, First (fun c x => x = c ∧ c.kind = .qos ∧ c.status = .e2e) cs c ∧ Enough c.way x.way) := by
      rw [this]
      constructor
      · intro h w' hw
        have : w' = y.way := by
          unfold Turned at hw tw
          have e : Dirs w' = Dirs y.way := hw.trans tw.symm
          revert e
          cases w' <;> cases y.way <;> simp [Dirs]
        rw [this]
        exact h
      · intro h
        exact h _ tw
    rw [key]
  | skip hk _ ih =>
    exact absurd (ed _ (by simp)).1 hk

end Siphon.Offer
