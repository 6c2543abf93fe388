import Verif.RateLimit.Lemmas

set_option linter.unusedSimpArgs false

/-!
# Invariants behind C47 and C48
-/

namespace Siphon.RateLimit
open Siphon

/-- whole intervals of length `I` between `a` and `b` -/
def ticks (I a b : Nat) : Nat := (b - a) / I

theorem refill_eq (c : Config) (now : Nat) (b : Bucket) (h1 : c.perRefill = 1)
    (h2 : 0 < c.intervalMs) : b.refill c now =
      if c.burst ≠ 0 ∧ now - b.lastRefill ≥ c.interval then
        { b with tokens := min (b.tokens + ticks c.interval b.lastRefill now) c.burst,
                 lastRefill := now }
      else b := by
  unfold Bucket.refill ticks Config.interval
  have h3 : c.intervalMs ≠ 0 := by omega
  by_cases hb : c.burst = 0
  · simp [hb]
  · simp only [h1, h3, hb, Nat.one_ne_zero, or_self, if_false, ne_eq, not_false_eq_true, true_and,
      Nat.mul_one, Nat.div_div_eq_div_mul, Nat.mul_comm 1000000]

theorem fresh_refill (c : Config) (now n : Nat) (h1 : c.perRefill = 1)
    (h2 : 0 < c.intervalMs) : (Bucket.fresh n now).refill c now = Bucket.fresh n now := by
  rw [refill_eq c now _ h1 h2, if_neg]
  rintro ⟨_, h⟩
  simp [Bucket.fresh, Config.interval] at h
  omega

theorem div_add_le (a b t I : Nat) (h : a ≤ b) (h' : b ≤ t) :
    ticks I a b + ticks I b t ≤ ticks I a t := by
  unfold ticks
  rcases Nat.eq_zero_or_pos I with rfl | hI
  · simp
  · rw [Nat.le_div_iff_mul_le hI, Nat.add_mul]
    have h1 := Nat.div_mul_le_self (b - a) I
    have h2 := Nat.div_mul_le_self (t - b) I
    generalize (b - a) / I * I = x at *
    generalize (t - b) / I * I = y at *
    omega

theorem div_mono (a b c I : Nat) (h : a ≤ b) : ticks I c a ≤ ticks I c b :=
  Nat.div_le_div_right (by omega)

theorem interval_pos {c : Config} (h : 0 < c.intervalMs) : 0 < c.interval :=
  Nat.mul_pos h (by decide)

theorem scaled (b i s M : Nat) (h : b * i ≤ s * 1000) : b * (i * M) ≤ s * (1000 * M) := by
  rw [← Nat.mul_assoc, ← Nat.mul_assoc]
  exact Nat.mul_le_mul_right M h

theorem keeps_ns {c : Config} (h : c.keepsLongEnough) :
    c.burst * c.interval ≤ c.idleSecs * 1000000000 :=
  scaled c.burst c.intervalMs c.idleSecs 1000000 h

/-- Requests admitted under `k` since `start`, together with what the bucket still holds, are
covered by the burst and the intervals since `t0`. -/
def Covered (c : Config) (t0 start adm now : Nat) (o : Option Bucket) : Prop :=
  t0 ≤ start ∧ start ≤ now ∧
  match o with
  | none => adm ≤ ticks c.interval t0 now
  | some b => b.tokens ≤ c.burst ∧ b.lastAccess ≤ now ∧ b.lastRefill ≤ now ∧
    ((adm = 0 ∧ b.lastRefill + c.interval ≤ start) ∨
     (t0 ≤ b.lastRefill ∧ adm + b.tokens ≤ c.burst + ticks c.interval t0 b.lastRefill)) ∧
    (adm = 0 ∨ (t0 ≤ b.lastAccess ∧ adm ≤ c.burst + ticks c.interval t0 b.lastAccess))

theorem covered_bound {c : Config} {t0 start adm now : Nat} {o : Option Bucket}
    (h : Covered c t0 start adm now o) : adm ≤ c.burst + ticks c.interval t0 now := by
  obtain ⟨_, _, h⟩ := h
  cases o with
  | none => simp only [] at h; omega
  | some b =>
    simp only [] at h
    obtain ⟨_, h2, _, _, h5⟩ := h
    rcases h5 with h5 | ⟨_, h5⟩
    · omega
    · have := div_mono b.lastAccess now t0 c.interval h2
      omega

theorem covered_mono {c : Config} {t0 start adm now now' : Nat} {o : Option Bucket}
    (h : Covered c t0 start adm now o) (hn : now ≤ now') : Covered c t0 start adm now' o := by
  obtain ⟨h0, h1, h⟩ := h
  refine ⟨h0, by omega, ?_⟩
  cases o with
  | none =>
    simp only [] at h ⊢
    have := div_mono now now' t0 c.interval hn
    omega
  | some b =>
    simp only [] at h ⊢
    obtain ⟨h2, h3, h4, h5⟩ := h
    exact ⟨h2, by omega, by omega, h5⟩

theorem covered_drop {c : Config} (hk : c.keepsLongEnough) (hi : 0 < c.intervalMs)
    {t0 start adm now : Nat} {o o' : Option Bucket}
    (h : Covered c t0 start adm now o) (hd : KeptOrIdle c now o o') :
    Covered c t0 start adm now o' := by
  rcases hd with rfl | ⟨b, rfl, rfl, hidle⟩
  · exact h
  · obtain ⟨h0, h1, h2, h3, h4, h5, h6⟩ := h
    refine ⟨h0, h1, ?_⟩
    show adm ≤ ticks c.interval t0 now
    rcases h6 with h6 | ⟨h6, h7⟩
    · omega
    · have h8 := div_add_le t0 b.lastAccess now c.interval h6 h3
      have h9 : c.burst ≤ ticks c.interval b.lastAccess now := by
        unfold ticks
        rw [Nat.le_div_iff_mul_le (interval_pos hi)]
        have := keeps_ns hk
        omega
      omega

theorem covered_look {c : Config} (h1 : c.perRefill = 1) (h2 : 0 < c.intervalMs)
    {t0 start adm now : Nat} {b : Bucket} (h : Covered c t0 start adm now (some b)) :
    Covered c t0 start adm now (some (b.refill c now)) := by
  rw [refill_eq c now b h1 h2]
  split
  · rename_i hr
    obtain ⟨h0, h01, h3, h4, h5, h6, h7⟩ := h
    have hm1 := Nat.min_le_left (b.tokens + ticks c.interval b.lastRefill now) c.burst
    have hm2 := Nat.min_le_right (b.tokens + ticks c.interval b.lastRefill now) c.burst
    have hd := div_add_le t0 b.lastRefill now c.interval
    generalize min (b.tokens + ticks c.interval b.lastRefill now) c.burst = m at *
    generalize ticks c.interval b.lastRefill now = x at *
    refine ⟨h0, h01, hm2, h4, Nat.le_refl _, Or.inr ⟨Nat.le_trans h0 h01, ?_⟩, h7⟩
    show adm + m ≤ c.burst + ticks c.interval t0 now
    rcases h6 with ⟨h6, h8⟩ | ⟨h6, h8⟩
    · rw [h6, Nat.zero_add]; exact Nat.le_trans hm2 (Nat.le_add_right _ _)
    · have := hd h6 h5
      generalize ticks c.interval t0 now = y at *
      generalize ticks c.interval t0 b.lastRefill = z at *
      omega
  · exact h

theorem covered_consume {c : Config} (h1 : c.perRefill = 1) (h2 : 0 < c.intervalMs)
    {t0 start adm now : Nat} {o : Option Bucket} (h : Covered c t0 start adm now o) :
    Covered c t0 start (adm + [(consumed c o now).1].count true) now (some (consumed c o now).2) := by
  have key : ∀ b : Bucket, Covered c t0 start adm now (some b) →
      (t0 ≤ b.lastRefill ∧ adm + b.tokens ≤ c.burst + ticks c.interval t0 b.lastRefill) →
      Covered c t0 start
        (adm + [(if b.tokens ≥ 1 then (true, { b with lastAccess := now, tokens := b.tokens - 1 })
          else (false, { b with lastAccess := now, blocked := b.blocked + 1 }) : Bool × Bucket).1].count true) now
        (some (if b.tokens ≥ 1 then (true, { b with lastAccess := now, tokens := b.tokens - 1 })
          else (false, { b with lastAccess := now, blocked := b.blocked + 1 }) : Bool × Bucket).2) := by
    intro b ⟨h0, h01, h3, h4, h5, _, h7⟩ ⟨h8, h9⟩
    have hd := div_mono b.lastRefill now t0 c.interval h5
    split
    · rename_i ht
      simp only [List.count_cons_self, List.count_nil]
      refine ⟨h0, h01, by simp; omega, by simp, by simp; omega, Or.inr ⟨h8, ?_⟩, Or.inr ⟨by simp; omega, ?_⟩⟩
      · simp only []; omega
      · simp only []; omega
    · rename_i ht
      have : ([false].count true) = 0 := rfl
      rw [this, Nat.add_zero]
      refine ⟨h0, h01, by simp; omega, by simp, by simp; omega, Or.inr ⟨h8, h9⟩, Or.inr ⟨by simp; omega, ?_⟩⟩
      simp only []; omega
  cases o with
  | none =>
    simp only [consumed, Bucket.tryConsume, fresh_refill c now c.burst h1 h2]
    obtain ⟨h0, h01, h3⟩ := h
    simp only [] at h3
    have := key (Bucket.fresh c.burst now)
      ⟨h0, h01, by simp [Bucket.fresh], by simp [Bucket.fresh], by simp [Bucket.fresh],
        Or.inr ⟨by simp [Bucket.fresh]; omega, by simp [Bucket.fresh]; omega⟩,
        Or.inr ⟨by simp [Bucket.fresh]; omega, by simp [Bucket.fresh]; omega⟩⟩
      ⟨by simp [Bucket.fresh]; omega, by simp [Bucket.fresh]; omega⟩
    exact this
  | some b =>
    have hl := covered_look h1 h2 h
    simp only [consumed, Bucket.tryConsume]
    obtain ⟨h0, h01, h3, h4, h5, h6, h7⟩ := id hl
    rcases h6 with ⟨h6, h8⟩ | h6
    · -- the bucket cannot stay unrefilled: its last refill is an interval before `start`
      by_cases hb : c.burst = 0
      · have ht : (b.refill c now).tokens = 0 := by omega
        simp only [ht]
        have : ([false].count true) = 0 := rfl
        simp only [Nat.not_le, ge_iff_le, Nat.lt_irrefl, if_false, show ¬ (1 ≤ 0) by omega, this,
          Nat.add_zero]
        refine ⟨h0, h01, by simp [ht], by simp, by simpa using h5, Or.inl ⟨h6, h8⟩, Or.inl h6⟩
      · exfalso
        rw [refill_eq c now b h1 h2] at h8
        split at h8
        · simp only [] at h8
          have := interval_pos h2
          omega
        · rename_i hr
          apply hr
          exact ⟨hb, by omega⟩
    · exact key (b.refill c now) hl h6

theorem covered_effect {c : Config} (h1 : c.perRefill = 1) (h2 : 0 < c.intervalMs)
    (hk : c.keepsLongEnough) {k : Str} {t0 start adm now : Nat} {o o' : Option Bucket} {op : Op}
    {l : List Bool} (h : Covered c t0 start adm now o) (he : Effect c k o op o' l)
    (ht : ∀ t, op.time = some t → now ≤ t) (hr : op ≠ .reset k ∧ op ≠ .clear) :
    Covered c t0 start (adm + l.count true) (op.time.getD now) o' := by
  have hmono : now ≤ op.time.getD now := by
    cases ho : op.time with
    | none => simp
    | some t => simpa using ht t ho
  cases he with
  | keep e => subst e; exact covered_mono h hmono
  | drop e hd =>
    rw [e] at hmono ⊢
    exact covered_drop hk h2 (covered_mono h hmono) hd
  | request hd =>
    exact covered_consume h1 h2 (covered_drop hk h2 (covered_mono h hmono) hd)
  | refused hd =>
    exact covered_drop hk h2 (covered_mono h hmono) hd
  | look e e' =>
    subst e'
    rcases e with rfl | rfl
    · exact covered_look h1 h2 (covered_mono h hmono)
    · exact covered_look h1 h2 (covered_mono h hmono)
  | reset e =>
    rcases e with rfl | rfl
    · exact absurd rfl hr.1
    · exact absurd rfl hr.2

theorem clock_le : ∀ (ops : List Op) (lo hi : Nat), Clock lo hi ops → lo ≤ hi
  | [], _, _, h => h
  | op :: ops, lo, hi, h => by
    simp only [Clock] at h
    cases ho : op.time with
    | none => rw [ho] at h; exact clock_le ops lo hi h
    | some t => rw [ho] at h; exact Nat.le_trans h.1 (clock_le ops t hi h.2)

theorem clock_step {op : Op} {ops : List Op} {lo hi : Nat} (h : Clock lo hi (op :: ops)) :
    (∀ t, op.time = some t → lo ≤ t) ∧ Clock (op.time.getD lo) hi ops := by
  simp only [Clock] at h
  cases ho : op.time with
  | none => rw [ho] at h; exact ⟨by simp, h⟩
  | some t => rw [ho] at h; exact ⟨by simpa using h.1, by simpa using h.2⟩

theorem covered_run {c : Config} (hc : Made c) (he : c.enabled = true) (hk : c.keepsLongEnough)
    (k : Str) (t0 start hi : Nat) : ∀ (ops : List Op) (s : Limiter) (adm now : Nat), Tidy s →
      Covered c t0 start adm now (s.buckets.get k) → Clock now hi ops → NoReset k ops →
      adm + admitted c k s ops ≤ c.burst + ticks c.interval t0 hi
  | [], s, adm, now, _, h, hcl, _ => by
    have h1 := covered_bound h
    have h2 : now ≤ hi := hcl
    have := div_mono now hi t0 c.interval h2
    simp only [admitted, answers, List.count_nil, Nat.add_zero]
    omega
  | op :: ops, s, adm, now, ht, h, hcl, hn => by
    obtain ⟨h1, h2⟩ := made_spec hc
    obtain ⟨h3, h4⟩ := clock_step hcl
    have h5 := covered_effect h1 h2 hk h (effect_step c s op k ht he) h3 (hn op (by simp))
    have := covered_run hc he hk k t0 start hi ops (s.step c op) _ _ (tidy_step c s op ht) h5 h4
      (fun x hx => hn x (by simp [hx]))
    simp only [admitted, answers_cons, List.count_append] at this ⊢
    omega

/-! ## A key that was never used -/

theorem untracked (c : Config) (he : c.enabled = true) (k : Str) : ∀ (ops : List Op) (s : Limiter),
    Tidy s → s.buckets.get k = none → (∀ t, .check k t ∉ ops) →
    (s.run c ops).buckets.get k = none
  | [], _, _, h, _ => h
  | op :: ops, s, ht, h, hn => by
    refine untracked c he k ops (s.step c op) (tidy_step c s op ht) ?_
      (fun t hm => hn t (by simp [hm]))
    have hop : ∀ t, op ≠ .check k t := fun t e => hn t (by simp [e])
    have he := effect_step c s op k ht he
    rw [h] at he
    generalize (s.step c op).buckets.get k = o' at *
    generalize answer1 c k s op = l at *
    cases he with
    | keep e => exact e
    | drop _ hd =>
      rcases hd with e | ⟨b, e, _⟩
      · exact e
      · simp at e
    | request _ => exact absurd rfl (hop _)
    | refused _ => exact absurd rfl (hop _)
    | look _ e => simp at e
    | reset _ => rfl

/-- Every bucket holds at most the burst and was refilled and used no later than `now`. -/
theorem sane_run (c : Config) (hc : Made c) (he : c.enabled = true) (k : Str) (hi : Nat) :
    ∀ (ops : List Op) (s : Limiter) (now : Nat), Tidy s → Clock now hi ops →
      (∀ b, s.buckets.get k = some b → b.tokens ≤ c.burst ∧ b.lastAccess ≤ now ∧ b.lastRefill ≤ now) →
      ∀ b, (s.run c ops).buckets.get k = some b →
        b.tokens ≤ c.burst ∧ b.lastAccess ≤ hi ∧ b.lastRefill ≤ hi
  | [], s, now, _, hcl, h => by
    intro b hb
    have := h b hb
    have h2 : now ≤ hi := hcl
    omega
  | op :: ops, s, now, ht, hcl, h => by
    obtain ⟨h1, h2⟩ := made_spec hc
    obtain ⟨h3, h4⟩ := clock_step hcl
    refine sane_run c hc he k hi ops (s.step c op) _ (tidy_step c s op ht) h4 ?_
    have hmono : now ≤ op.time.getD now := by
      cases ho : op.time with
      | none => simp
      | some t => simpa using h3 t ho
    have hef := effect_step c s op k ht he
    intro b hb
    rw [hb] at hef
    generalize s.buckets.get k = o at *
    generalize answer1 c k s op = l at *
    generalize ho' : some b = o' at hef
    have hkept : ∀ {t o o1}, (∀ b, o = some b → b.tokens ≤ c.burst ∧ b.lastAccess ≤ now ∧ b.lastRefill ≤ now) →
        KeptOrIdle c t o o1 → ∀ b, o1 = some b → b.tokens ≤ c.burst ∧ b.lastAccess ≤ now ∧ b.lastRefill ≤ now := by
      intro t o o1 h hd b hb
      rcases hd with rfl | ⟨_, _, e, _⟩
      · exact h b hb
      · rw [e] at hb; simp at hb
    have hrefill : ∀ (b : Bucket) (t : Nat), now ≤ t → (b.tokens ≤ c.burst ∧ b.lastAccess ≤ now ∧ b.lastRefill ≤ now) →
        (b.refill c t).tokens ≤ c.burst ∧ (b.refill c t).lastAccess ≤ t ∧ (b.refill c t).lastRefill ≤ t := by
      intro b t htt hb
      rw [refill_eq c t b h1 h2]
      split
      · exact ⟨Nat.min_le_right _ _, Nat.le_trans hb.2.1 htt, Nat.le_refl _⟩
      · exact ⟨hb.1, Nat.le_trans hb.2.1 htt, Nat.le_trans hb.2.2 htt⟩
    have htry : ∀ (b : Bucket) (t : Nat), (b.refill c t).tokens ≤ c.burst ∧ (b.refill c t).lastRefill ≤ t →
        (b.tryConsume c t).2.tokens ≤ c.burst ∧ (b.tryConsume c t).2.lastAccess ≤ t ∧
          (b.tryConsume c t).2.lastRefill ≤ t := by
      intro b t hb
      unfold Bucket.tryConsume
      simp only []
      split
      · refine ⟨?_, ?_, ?_⟩ <;> simp <;> omega
      · refine ⟨?_, ?_, ?_⟩ <;> simp <;> omega
    cases hef with
    | keep e => subst e; have := h b ho'.symm; omega
    | drop e hd =>
      have := hkept h hd b ho'.symm
      omega
    | @request o1 t hd =>
      simp only [Option.some.injEq] at ho'
      subst ho'
      have htt : now ≤ t := h3 t rfl
      simp only [Op.time, Option.getD_some]
      cases o1 with
      | none =>
        refine htry _ t ?_
        rw [fresh_refill c t c.burst h1 h2]
        simp [Bucket.fresh]
      | some b1 =>
        have := hrefill b1 t htt (hkept h hd b1 rfl)
        exact htry b1 t ⟨this.1, this.2.2⟩
    | refused hd =>
      have := hkept h hd b ho'.symm
      omega
    | @look _ b1 t e e' =>
      simp only [Option.some.injEq] at ho'
      subst ho'
      have ht2 : op.time = some t := by rcases e with rfl | rfl <;> rfl
      have htt : now ≤ t := h3 t ht2
      rw [ht2]
      exact hrefill b1 t htt (h b1 e')
    | reset _ => simp at ho'

end Siphon.RateLimit
