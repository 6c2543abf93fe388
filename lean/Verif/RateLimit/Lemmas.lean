import Verif.RateLimit.Spec

set_option linter.unusedSimpArgs false

namespace Siphon.RateLimit
open Siphon

theorem Tbl.get_filter {K V : Type} [DecidableEq K] (p : K × V → Bool) :
    ∀ (t : Tbl K V) (k : K), (Tbl.keys t).Nodup →
      Tbl.get (t.filter p) k = (Tbl.get t k).filter fun v => p (k, v)
  | [], _, _ => rfl
  | (k', v) :: t, k, hn => by
    simp only [Tbl.keys, List.map_cons, List.nodup_cons] at hn
    have ih := get_filter p t k hn.2
    simp only [List.filter_cons]
    by_cases hk : k' = k
    · subst hk
      have hnone : Tbl.get t k' = none := (Tbl.get_eq_none_iff t k').2 hn.1
      rw [Tbl.get_cons, if_pos rfl]
      by_cases hp : p (k', v) = true
      · simp [hp, Tbl.get_cons, Option.filter]
      · simp only [Bool.not_eq_true] at hp
        simp only [hp, Bool.false_eq_true, if_false, Option.filter]
        rw [ih, hnone]; rfl
    · rw [Tbl.get_cons, if_neg hk]
      by_cases hp : p (k', v) = true
      · simp only [hp, if_true, Tbl.get_cons, if_neg hk]; exact ih
      · simp only [hp, Bool.false_eq_true, if_false]; exact ih

theorem keys_filter_sublist {K V : Type} [DecidableEq K] (p : K × V → Bool) (t : Tbl K V) :
    (Tbl.keys (t.filter p)).Sublist (Tbl.keys t) := by
  unfold Tbl.keys
  exact (List.filter_sublist).map _

theorem goodKey_iff (k : Str) : GoodKey k ↔ validateKey k = .ok () := by
  unfold GoodKey validateKey maxKeyLength
  by_cases h : utf8Len k > 256
  · rw [if_pos h]
    simp only [reduceCtorEq, iff_false, not_and]
    omega
  · rw [if_neg h]
    by_cases h2 : k.any isControl = true
    · rw [if_pos h2]
      simp only [reduceCtorEq, iff_false, not_and]
      intro _ h3
      obtain ⟨x, hx, hc⟩ := List.any_eq_true.1 h2
      rw [h3 x hx] at hc; simp at hc
    · rw [if_neg h2]
      simp only [iff_true]
      refine ⟨by omega, fun ch hch => ?_⟩
      cases hc : isControl ch with
      | false => rfl
      | true => exact absurd (List.any_eq_true.2 ⟨ch, hch, hc⟩) h2

theorem made_spec {c : Config} (h : Made c) : c.perRefill = 1 ∧ 0 < c.intervalMs := by
  induction h with
  | @new r w c h =>
    unfold Config.new at h
    repeat' split at h
    all_goals first | (simp at h; done) | skip
    all_goals
      simp only [Except.ok.injEq] at h
      subst h
      simp only [true_and]
      split
      · decide
      · exact Nat.pos_of_ne_zero (by assumption)
  | burst _ h ih =>
    unfold Config.withBurst at h
    split at h
    · simp at h
    · simp only [Except.ok.injEq] at h; subst h; exact ih
  | idle _ ih => exact ih
  | enabled _ ih => exact ih

/-- The table a request sees: idle buckets are thrown out every 1024 checks. -/
def Limiter.swept (c : Config) (s : Limiter) (now : Nat) : Tbl Str Bucket :=
  if (s.total + 1) % cleanupEvery = 0 then s.buckets.filter fun p => !p.2.isIdle c now
  else s.buckets

/-- The bucket of a request after the request. -/
def consumed (c : Config) (o : Option Bucket) (now : Nat) : Bool × Bucket :=
  match o with
  | none => (Bucket.fresh c.burst now).tryConsume c now
  | some b => b.tryConsume c now

theorem check_enabled (c : Config) (s : Limiter) (k : Str) (now : Nat) (he : c.enabled = true)
    (hk : GoodKey k) :
    (s.check c k now).1 =
      (if (s.swept c now).get k = none ∧ (s.swept c now).length ≥ maxTrackedKeys then false
       else (consumed c ((s.swept c now).get k) now).1) ∧
    (s.check c k now).2.buckets =
      (if (s.swept c now).get k = none ∧ (s.swept c now).length ≥ maxTrackedKeys then s.swept c now
       else match (s.swept c now).get k with
        | none => (s.swept c now).insert k (consumed c none now).2
        | some b => (s.swept c now).update k fun _ => (consumed c (some b) now).2) := by
  have hsw : (if (s.total + 1) % cleanupEvery = 0
      then Limiter.cleanup c { s with total := s.total + 1 } now
      else { s with total := s.total + 1 }).buckets = s.swept c now := by
    unfold Limiter.swept Limiter.cleanup
    by_cases h : (s.total + 1) % cleanupEvery = 0 <;> simp [h, he]
  unfold Limiter.check
  rw [(goodKey_iff k).1 hk]
  simp only [he, Bool.not_true, Bool.false_eq_true, if_false]
  generalize (if (s.total + 1) % cleanupEvery = 0
      then Limiter.cleanup c { s with total := s.total + 1 } now
      else { s with total := s.total + 1 }) = s1 at hsw ⊢
  rw [hsw]
  cases hg : (s.swept c now).get k with
  | none =>
    simp only [true_and]
    by_cases hl : (s.swept c now).length ≥ maxTrackedKeys
    · simp only [hl, if_true, true_and]
    · simp only [hl, if_false, consumed, true_and]
      split <;> rfl
  | some b =>
    simp only [reduceCtorEq, false_and, if_false, consumed, true_and]
    split <;> rfl

theorem check_bad (c : Config) (s : Limiter) (k : Str) (now : Nat) (hk : ¬ GoodKey k) :
    (s.check c k now).1 = false ∧ (s.check c k now).2.buckets = s.buckets := by
  rw [goodKey_iff] at hk
  unfold Limiter.check
  cases h : validateKey k with
  | error e => exact ⟨rfl, rfl⟩
  | ok u => exact absurd h hk

theorem check_disabled (c : Config) (s : Limiter) (k : Str) (now : Nat) (he : c.enabled = false)
    (hk : GoodKey k) : (s.check c k now).1 = true ∧ (s.check c k now).2.buckets = s.buckets := by
  unfold Limiter.check
  rw [(goodKey_iff k).1 hk]
  simp [he]

theorem info_buckets (c : Config) (s : Limiter) (k : Str) (now : Nat) (he : c.enabled = true) :
    (s.info c k now).2.buckets = match s.buckets.get k with
      | none => s.buckets
      | some b => s.buckets.update k fun _ => b.refill c now := by
  unfold Limiter.info
  simp only [he, Bool.not_true, Bool.false_eq_true, if_false]
  cases s.buckets.get k with
  | none => rfl
  | some b =>
    simp only []
    split <;> rfl

/-! ## Table invariant -/

/-- Keys are distinct, valid, and at most 100000. -/
structure Tidy (s : Limiter) : Prop where
  nodup : (Tbl.keys s.buckets).Nodup
  bound : s.buckets.length ≤ maxTrackedKeys
  good : ∀ k ∈ Tbl.keys s.buckets, GoodKey k

theorem tidy_of_sublist {s s' : Limiter} (h : Tidy s)
    (hs : (Tbl.keys s'.buckets).Sublist (Tbl.keys s.buckets)) : Tidy s' := by
  refine ⟨hs.nodup h.nodup, ?_, fun k hk => h.good k (hs.subset hk)⟩
  have := hs.length_le
  simp only [Tbl.keys, List.length_map] at this
  exact Nat.le_trans this h.bound

theorem swept_sublist (c : Config) (s : Limiter) (now : Nat) :
    (Tbl.keys (s.swept c now)).Sublist (Tbl.keys s.buckets) := by
  unfold Limiter.swept
  split
  · exact keys_filter_sublist _ _
  · exact List.Sublist.refl _

theorem tidy_step (c : Config) (s : Limiter) (op : Op) (h : Tidy s) : Tidy (s.step c op) := by
  cases op with
  | check k t =>
    show Tidy (s.check c k t).2
    by_cases hk : GoodKey k
    · cases he : c.enabled with
      | false =>
        refine tidy_of_sublist h ?_
        rw [(check_disabled c s k t he hk).2]
        exact List.Sublist.refl _
      | true =>
        have hb := (check_enabled c s k t he hk).2
        have hsub := swept_sublist c s t
        have hsw : Tidy { s with buckets := s.swept c t } := tidy_of_sublist h hsub
        split at hb
        · exact ⟨hb ▸ hsw.nodup, hb ▸ hsw.bound, hb ▸ hsw.good⟩
        · rename_i hfull
          cases hg : (s.swept c t).get k with
          | none =>
            rw [hg] at hb
            simp only [] at hb
            have hnm : k ∉ Tbl.keys (s.swept c t) := (Tbl.get_eq_none_iff _ _).1 hg
            refine ⟨?_, ?_, ?_⟩
            · rw [hb]; exact Tbl.nodup_insert _ _ _ hsw.nodup
            · rw [hb]
              have := Tbl.length_insert_le (s.swept c t) k (consumed c none t).2
              simp only [hg, true_and, ge_iff_le, Nat.not_le] at hfull
              omega
            · intro k' hk'
              rw [hb] at hk'
              simp only [Tbl.insert, Tbl.keys, List.map_cons, List.mem_cons] at hk'
              rcases hk' with rfl | hk'
              · exact hk
              · have := Tbl.keys_remove (s.swept c t) k
                have h2 : k' ∈ Tbl.keys (Tbl.remove (s.swept c t) k) := hk'
                rw [this] at h2
                exact hsw.good k' (List.mem_filter.1 h2).1
          | some b =>
            rw [hg] at hb
            simp only [] at hb
            refine tidy_of_sublist h ?_
            rw [hb, Tbl.keys_update]
            exact hsub
    · refine tidy_of_sublist h ?_
      rw [(check_bad c s k t hk).2]
      exact List.Sublist.refl _
  | cleanup t =>
    refine tidy_of_sublist h ?_
    simp only [Limiter.step, Limiter.cleanup]
    split
    · exact List.Sublist.refl _
    · exact keys_filter_sublist _ _
  | remaining k t =>
    refine tidy_of_sublist h ?_
    simp only [Limiter.step, Limiter.remaining]
    split
    · exact List.Sublist.refl _
    · simp only [Tbl.keys_update]; exact List.Sublist.refl _
  | info k t =>
    refine tidy_of_sublist h ?_
    simp only [Limiter.step, Limiter.info]
    split
    · exact List.Sublist.refl _
    · split
      · exact List.Sublist.refl _
      · split <;> (simp only [Tbl.keys_update]; exact List.Sublist.refl _)
  | reset k =>
    refine tidy_of_sublist h ?_
    simp only [Limiter.step, Limiter.reset]
    exact keys_filter_sublist _ _
  | clear =>
    refine tidy_of_sublist h ?_
    simp only [Limiter.step, Limiter.clear]
    exact List.nil_sublist _

theorem tidy_run (c : Config) : ∀ (ops : List Op) (s : Limiter), Tidy s → Tidy (s.run c ops)
  | [], _, h => h
  | op :: ops, s, h => tidy_run c ops _ (tidy_step c s op h)

theorem tidy_init : Tidy {} := ⟨by simp [Tbl.keys], by simp [maxTrackedKeys], by simp [Tbl.keys]⟩

/-! ## What a call does to the bucket of one key -/

/-- The bucket of `k` is as it was, or was thrown out because it was idle at `now`. -/
def KeptOrIdle (c : Config) (now : Nat) (o o' : Option Bucket) : Prop :=
  o' = o ∨ ∃ b, o = some b ∧ o' = none ∧ now - b.lastAccess > c.idleSecs * 1000000000

theorem keptOrIdle_filter (c : Config) (now : Nat) (t : Tbl Str Bucket) (k : Str)
    (hn : (Tbl.keys t).Nodup) :
    KeptOrIdle c now (t.get k) (Tbl.get (t.filter fun p => !p.2.isIdle c now) k) := by
  rw [Tbl.get_filter _ t k hn]
  cases hg : t.get k with
  | none => exact Or.inl rfl
  | some b =>
    cases hi : b.isIdle c now with
    | false => left; simp [Option.filter, hi]
    | true =>
      right
      refine ⟨b, rfl, by simp [Option.filter, hi], ?_⟩
      simpa [Bucket.isIdle] using hi

theorem keptOrIdle_swept (c : Config) (s : Limiter) (now : Nat) (k : Str) (h : Tidy s) :
    KeptOrIdle c now (s.buckets.get k) ((s.swept c now).get k) := by
  unfold Limiter.swept
  split
  · exact keptOrIdle_filter c now _ k h.nodup
  · exact Or.inl rfl

/-- What one call does to the bucket of `k`. -/
inductive Effect (c : Config) (k : Str) (o : Option Bucket) : Op → Option Bucket → List Bool → Prop
  | keep {op o'} : o' = o → Effect c k o op o' []
  | drop {op o' t} : op.time = some t → KeptOrIdle c t o o' → Effect c k o op o' []
  | request {o1 t} : KeptOrIdle c t o o1 →
      Effect c k o (.check k t) (some (consumed c o1 t).2) [(consumed c o1 t).1]
  | refused {o1 t} : KeptOrIdle c t o o1 → Effect c k o (.check k t) o1 [false]
  | look {op b t} : op = .remaining k t ∨ op = .info k t → o = some b →
      Effect c k o op (some (b.refill c t)) []
  | reset {op} : op = .reset k ∨ op = .clear → Effect c k o op none []

/-- The answers one call gives under key `k`. -/
def answer1 (c : Config) (k : Str) (s : Limiter) (op : Op) : List Bool :=
  match op with
  | .check k' t => if k' = k then [(s.check c k' t).1] else []
  | _ => []

theorem effect_step (c : Config) (s : Limiter) (op : Op) (k : Str) (h : Tidy s)
    (he : c.enabled = true) :
    Effect c k (s.buckets.get k) op ((s.step c op).buckets.get k) (answer1 c k s op) := by
  cases op with
  | check k' t =>
    show Effect c k (s.buckets.get k) _ ((s.check c k' t).2.buckets.get k) _
    simp only [answer1]
    by_cases hk : GoodKey k'
    · obtain ⟨h1, h2⟩ := check_enabled c s k' t he hk
      have hko := keptOrIdle_swept c s t k h
      by_cases hkk : k' = k
      · subst hkk
        rw [if_pos rfl, h1, h2]
        split
        · exact .refused hko
        · cases hg : (s.swept c t).get k' with
          | none =>
            simp only [Tbl.get_insert_self]
            rw [hg] at hko
            exact .request hko
          | some b =>
            simp only [Tbl.get_update_self, hg, Option.map_some]
            rw [hg] at hko
            exact .request hko
      · rw [if_neg hkk, h2]
        refine .drop (t := t) rfl ?_
        split
        · exact hko
        · cases hg : (s.swept c t).get k' with
          | none => simp only [Tbl.get_insert_ne _ _ (Ne.symm hkk)]; exact hko
          | some b => simp only [Tbl.get_update_ne _ _ (Ne.symm hkk)]; exact hko
    · obtain ⟨h1, h2⟩ := check_bad c s k' t hk
      rw [h2]
      by_cases hkk : k' = k
      · subst hkk
        rw [if_pos rfl, h1]
        exact .refused (Or.inl rfl)
      · rw [if_neg hkk]
        exact .keep rfl
  | cleanup t =>
    refine .drop (t := t) rfl ?_
    simp only [Limiter.step, Limiter.cleanup, he, Bool.not_true, Bool.false_eq_true, if_false]
    exact keptOrIdle_filter c t _ k h.nodup
  | remaining k' t =>
    simp only [Limiter.step, Limiter.remaining, answer1]
    cases hg : s.buckets.get k' with
    | none => exact .keep rfl
    | some b =>
      simp only []
      by_cases hkk : k' = k
      · subst hkk
        rw [Tbl.get_update_self, hg, Option.map_some]
        exact .look (Or.inl rfl) rfl
      · rw [Tbl.get_update_ne _ _ (Ne.symm hkk)]
        exact .keep rfl
  | info k' t =>
    simp only [Limiter.step, answer1]
    rw [info_buckets c s k' t he]
    cases hg : s.buckets.get k' with
    | none => exact .keep rfl
    | some b =>
      simp only []
      by_cases hkk : k' = k
      · subst hkk
        rw [Tbl.get_update_self, hg, Option.map_some]
        exact .look (Or.inr rfl) rfl
      · rw [Tbl.get_update_ne _ _ (Ne.symm hkk)]
        exact .keep rfl
  | reset k' =>
    simp only [Limiter.step, Limiter.reset, answer1]
    by_cases hkk : k' = k
    · subst hkk
      rw [Tbl.get_remove_self]
      exact .reset (Or.inl rfl)
    · rw [Tbl.get_remove_ne _ (Ne.symm hkk)]
      exact .keep rfl
  | clear =>
    simp only [Limiter.step, Limiter.clear, answer1, Tbl.get_nil]
    exact .reset (Or.inr rfl)

theorem answers_cons (c : Config) (k : Str) (s : Limiter) (op : Op) (ops : List Op) :
    answers c k s (op :: ops) = answer1 c k s op ++ answers c k (s.step c op) ops := by
  cases op <;> rfl

end Siphon.RateLimit
