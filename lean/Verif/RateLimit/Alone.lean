import Verif.RateLimit.Bound

set_option linter.unusedSimpArgs false

/-!
# Simulation of a single bucket (C48)
-/

namespace Siphon.RateLimit
open Siphon

theorem length_le_of_subset {α : Type} [DecidableEq α] : ∀ (l m : List α), l.Nodup →
    (∀ x ∈ l, x ∈ m) → l.length ≤ m.length
  | [], _, _, _ => by simp
  | x :: l, m, hn, hs => by
    rw [List.nodup_cons] at hn
    have hx : x ∈ m := hs x (by simp)
    have := length_le_of_subset l (m.erase x) hn.2 (fun y hy => by
      have hne : y ≠ x := fun e => hn.1 (e ▸ hy)
      exact (List.mem_erase_of_ne hne).2 (hs y (by simp [hy])))
    rw [List.length_erase_of_mem hx] at this
    have : 0 < m.length := List.length_pos_iff.2 (List.ne_nil_of_mem hx)
    simp only [List.length_cons]
    omega

theorem keys_step (c : Config) (s : Limiter) (op : Op) (k : Str) (h : Tidy s)
    (hk : k ∈ Tbl.keys (s.step c op).buckets) : k ∈ Tbl.keys s.buckets ∨ ∃ t, op = .check k t := by
  cases he : c.enabled with
  | false =>
    by_cases hop : ∃ t, op = .check k t
    · exact Or.inr hop
    left
    cases op with
    | check k' t =>
      by_cases hg : GoodKey k'
      · rwa [show (s.step c (.check k' t)).buckets = s.buckets from
          (check_disabled c s k' t he hg).2] at hk
      · rwa [show (s.step c (.check k' t)).buckets = s.buckets from (check_bad c s k' t hg).2] at hk
    | cleanup t => simpa [Limiter.step, Limiter.cleanup, he] using hk
    | remaining k' t =>
      simp only [Limiter.step, Limiter.remaining] at hk
      split at hk
      · exact hk
      · simpa only [Tbl.keys_update] using hk
    | info k' t => simpa [Limiter.step, Limiter.info, he] using hk
    | reset k' =>
      simp only [Limiter.step, Limiter.reset] at hk
      rw [Tbl.keys_remove] at hk
      exact (List.mem_filter.1 hk).1
    | clear => simp [Limiter.step, Limiter.clear, Tbl.keys] at hk
  | true =>
    rw [← Tbl.get_isSome_iff] at hk ⊢
    have hef := effect_step c s op k h he
    generalize (s.step c op).buckets.get k = o' at *
    generalize s.buckets.get k = o at *
    generalize answer1 c k s op = l at *
    cases hef with
    | keep e => exact Or.inl (e ▸ hk)
    | drop _ hd =>
      rcases hd with e | ⟨_, _, e, _⟩
      · exact Or.inl (e ▸ hk)
      · rw [e] at hk; simp at hk
    | request _ => exact Or.inr ⟨_, rfl⟩
    | refused _ => exact Or.inr ⟨_, rfl⟩
    | look _ e => left; rw [e]; rfl
    | reset _ => simp at hk

/-- The bucket kept for a key agrees with the key's own bucket, or was thrown out once full. -/
def Agree (c : Config) (now : Nat) : Option (Nat × Nat) → Option Bucket → Prop
  | none, o => o = none
  | some (n, l), o => l ≤ now ∧
    ((∃ b, o = some b ∧ b.tokens = n ∧ b.lastRefill = l ∧ l ≤ b.lastAccess ∧ b.lastAccess ≤ now) ∨
     (o = none ∧ l + c.idleSecs * 1000000000 < now))

theorem agree_mono {c : Config} {now now' : Nat} {st : Option (Nat × Nat)} {o : Option Bucket}
    (h : Agree c now st o) (hn : now ≤ now') : Agree c now' st o := by
  match st with
  | none => exact h
  | some (n, l) =>
    obtain ⟨h1, h2⟩ := h
    refine ⟨Nat.le_trans h1 hn, ?_⟩
    rcases h2 with ⟨b, e, h3, h4, h5, h6⟩ | ⟨e, h3⟩
    · exact Or.inl ⟨b, e, h3, h4, h5, Nat.le_trans h6 hn⟩
    · exact Or.inr ⟨e, Nat.lt_of_lt_of_le h3 hn⟩

theorem agree_drop {c : Config} {now : Nat} {st : Option (Nat × Nat)} {o o' : Option Bucket}
    (h : Agree c now st o) (hd : KeptOrIdle c now o o') : Agree c now st o' := by
  rcases hd with rfl | ⟨b, rfl, rfl, hi⟩
  · exact h
  · match st with
    | none => simp [Agree] at h
    | some (n, l) =>
      obtain ⟨h1, h2⟩ := h
      refine ⟨h1, Or.inr ⟨rfl, ?_⟩⟩
      rcases h2 with ⟨b', e, h3, h4, h5, h6⟩ | ⟨e, _⟩
      · simp only [Option.some.injEq] at e
        subst e
        generalize c.idleSecs * 1000000000 = x at *
        omega
      · simp at e

/-- The state of the lone bucket after a request at `t`, before the token is taken. -/
def aloneRefill (burst interval : Nat) (st : Option (Nat × Nat)) (t : Nat) : Nat × Nat :=
  match st with
  | none => (burst, t)
  | some (n, l) => if t - l ≥ interval then (min (n + (t - l) / interval) burst, t) else (n, l)

theorem bucketAlone_request (burst interval : Nat) (st : Option (Nat × Nat)) (t : Nat)
    (evs : List Own) : bucketAlone burst interval st (.request t :: evs) =
      if (aloneRefill burst interval st t).1 ≥ 1 then
        true :: bucketAlone burst interval
          (some ((aloneRefill burst interval st t).1 - 1, (aloneRefill burst interval st t).2)) evs
      else false :: bucketAlone burst interval
          (some ((aloneRefill burst interval st t).1, (aloneRefill burst interval st t).2)) evs := rfl

theorem consumed_alone {c : Config} (h1 : c.perRefill = 1) (h2 : 0 < c.intervalMs)
    (hk : c.keepsLongEnough) (hb : 1 ≤ c.burst) {now : Nat} {st : Option (Nat × Nat)}
    {o : Option Bucket} (h : Agree c now st o) :
    (consumed c o now).1 = decide ((aloneRefill c.burst c.interval st now).1 ≥ 1) ∧
    Agree c now (some ((aloneRefill c.burst c.interval st now).1 - 1,
      (aloneRefill c.burst c.interval st now).2)) (some (consumed c o now).2) := by
  -- what the stored bucket becomes after the refill
  have key : ∀ b : Bucket, (b.refill c now).tokens = (aloneRefill c.burst c.interval st now).1 →
      (b.refill c now).lastRefill = (aloneRefill c.burst c.interval st now).2 →
      (aloneRefill c.burst c.interval st now).2 ≤ now →
      (b.tryConsume c now).1 = decide ((aloneRefill c.burst c.interval st now).1 ≥ 1) ∧
      Agree c now (some ((aloneRefill c.burst c.interval st now).1 - 1,
        (aloneRefill c.burst c.interval st now).2)) (some (b.tryConsume c now).2) := by
    intro b e1 e2 e3
    generalize aloneRefill c.burst c.interval st now = p at *
    unfold Bucket.tryConsume
    simp only [e1]
    split
    · rename_i ht
      refine ⟨by simp [ht], e3, Or.inl ⟨_, rfl, by simp [e1], by simp [e2], by simp [e3], by simp⟩⟩
    · rename_i ht
      refine ⟨by simp [ht], e3, Or.inl ⟨_, rfl, ?_, by simp [e2], by simp [e3], by simp⟩⟩
      simp only [e1]
      omega
  match st, h with
  | none, h =>
    simp only [Agree] at h
    subst h
    apply key
    · rw [fresh_refill c now c.burst h1 h2]; rfl
    · rw [fresh_refill c now c.burst h1 h2]; rfl
    · exact Nat.le_refl _
  | some (n, l), ⟨hl, hor⟩ =>
    rcases hor with ⟨b, rfl, h3, h4, h5, h6⟩ | ⟨rfl, h3⟩
    · have hb0 : c.burst ≠ 0 := by omega
      have e : b.refill c now = if now - l ≥ c.interval then
          { b with tokens := min (n + ticks c.interval l now) c.burst, lastRefill := now } else b := by
        rw [refill_eq c now b h1 h2, h3, h4]
        simp only [hb0, ne_eq, not_false_eq_true, true_and]
      apply key
      · rw [e]; simp only [aloneRefill, ticks]; split
        · rfl
        · exact h3
      · rw [e]; simp only [aloneRefill]; split
        · rfl
        · exact h4
      · simp only [aloneRefill]; split
        · exact Nat.le_refl _
        · exact hl
    · have hns := keeps_ns hk
      have hge : c.burst * c.interval ≤ now - l := by
        generalize c.idleSecs * 1000000000 = x at *
        generalize c.burst * c.interval = y at *
        omega
      have hI : c.interval ≤ now - l :=
        Nat.le_trans (Nat.le_mul_of_pos_left _ hb) hge
      have hfull : c.burst ≤ n + (now - l) / c.interval :=
        Nat.le_trans ((Nat.le_div_iff_mul_le (interval_pos h2)).2 hge) (Nat.le_add_left _ _)
      have ha : aloneRefill c.burst c.interval (some (n, l)) now = (c.burst, now) := by
        simp only [aloneRefill, ge_iff_le, hI, if_true, Nat.min_eq_right hfull]
      rw [ha]
      rw [ha] at key
      apply key
      · rw [fresh_refill c now c.burst h1 h2]; rfl
      · rw [fresh_refill c now c.burst h1 h2]; rfl
      · exact Nat.le_refl _

theorem alone_run {c : Config} (hc : Made c) (he : c.enabled = true) (hk : c.keepsLongEnough)
    (hb : 1 ≤ c.burst) (k : Str) (hg : GoodKey k) (ks : List Str) (hks : ks.length ≤ maxTrackedKeys)
    (hi : Nat) : ∀ (ops : List Op) (s : Limiter) (now : Nat) (st : Option (Nat × Nat)), Tidy s →
      (∀ k ∈ Tbl.keys s.buckets, k ∈ ks) → (∀ k t, .check k t ∈ ops → k ∈ ks) →
      (∀ t, .remaining k t ∉ ops ∧ .info k t ∉ ops) →
      Clock now hi ops → Agree c now st (s.buckets.get k) →
      answers c k s ops = bucketAlone c.burst c.interval st (own k ops)
  | [], _, _, st, _, _, _, _, _, _ => by cases st <;> rfl
  | op :: ops, s, now, st, ht, hin, hck, hlook, hcl, ha => by
    obtain ⟨h1, h2⟩ := made_spec hc
    obtain ⟨h3, h4⟩ := clock_step hcl
    have hmono : now ≤ op.time.getD now := by
      cases ho : op.time with
      | none => simp
      | some t => simpa using h3 t ho
    have ih := alone_run hc he hk hb k hg ks hks hi ops (s.step c op) (op.time.getD now)
    have htid := tidy_step c s op ht
    have hin' : ∀ k ∈ Tbl.keys (s.step c op).buckets, k ∈ ks := by
      intro x hx
      rcases keys_step c s op x ht hx with h | ⟨t, rfl⟩
      · exact hin x h
      · exact hck x t (by simp)
    have ih := fun st => ih st htid hin' (fun k t hm => hck k t (by simp [hm]))
      (fun t => ⟨fun hm => (hlook t).1 (by simp [hm]), fun hm => (hlook t).2 (by simp [hm])⟩) h4
    rw [answers_cons]
    by_cases hop : ∃ t, op = .check k t
    · obtain ⟨t, rfl⟩ := hop
      have hsw := agree_drop (agree_mono ha (h3 t rfl)) (keptOrIdle_swept c s t k ht)
      obtain ⟨e1, e2⟩ := check_enabled c s k t he hg
      have hroom : ¬ ((s.swept c t).get k = none ∧ (s.swept c t).length ≥ maxTrackedKeys) := by
        rintro ⟨hn, hl⟩
        have hnm := (Tbl.get_eq_none_iff _ _).1 hn
        have hsub := swept_sublist c s t
        have := length_le_of_subset (k :: Tbl.keys (s.swept c t)) ks
          (List.nodup_cons.2 ⟨hnm, hsub.nodup ht.nodup⟩) (by
            intro x hx
            rcases List.mem_cons.1 hx with rfl | hx
            · exact hck x t (by simp)
            · exact hin x (hsub.subset hx))
        simp only [List.length_cons, Tbl.keys, List.length_map] at this
        omega
      rw [if_neg hroom] at e1 e2
      obtain ⟨e3, e4⟩ := consumed_alone h1 h2 hk hb hsw
      have e5 : (s.step c (.check k t)).buckets.get k
          = some (consumed c ((s.swept c t).get k) t).2 := by
        show (s.check c k t).2.buckets.get k = _
        rw [e2]
        cases hgk : (s.swept c t).get k with
        | none => simp only [Tbl.get_insert_self]
        | some b => simp only [Tbl.get_update_self, hgk, Option.map_some]
      simp only [answer1, if_true, own, bucketAlone_request, e1]
      rw [e3, ih _ (by rw [e5]; exact e4)]
      split
      · rename_i hh; simp [hh]
      · rename_i hh
        have h0 : (aloneRefill c.burst c.interval st t).1 = 0 := by omega
        rw [h0]
        simp
    · have hans : answer1 c k s op = [] := by
        cases op with
        | check k' t =>
          have : k' ≠ k := fun e => hop ⟨t, by rw [e]⟩
          simp [answer1, this]
        | _ => rfl
      rw [hans, List.nil_append]
      have hef := effect_step c s op k ht he
      rw [hans] at hef
      -- resets are the only remaining event of the key's own history
      by_cases hrs : op = .reset k ∨ op = .clear
      · have ho' : (s.step c op).buckets.get k = none := by
          rcases hrs with rfl | rfl
          · exact Tbl.get_remove_self _ _
          · rfl
        rcases hrs with rfl | rfl
        · simp only [own, if_true, bucketAlone]
          exact ih none ho'
        · simp only [own, bucketAlone]
          exact ih none ho'
      · have hown : own k (op :: ops) = own k ops := by
          cases op with
          | check k' t =>
            have : k' ≠ k := fun e => hop ⟨t, by rw [e]⟩
            simp [own, this]
          | reset k' =>
            have : k' ≠ k := fun e => hrs (Or.inl (by rw [e]))
            simp [own, this]
          | clear => exact absurd (Or.inr rfl) hrs
          | cleanup t => rfl
          | remaining k' t => rfl
          | info k' t => rfl
        rw [hown]
        apply ih
        generalize s.buckets.get k = o at *
        generalize (s.step c op).buckets.get k = o' at *
        cases hef with
        | keep e => subst e; exact agree_mono ha hmono
        | drop e hd =>
          rw [e] at hmono ⊢
          exact agree_drop (agree_mono ha hmono) hd
        | look e _ =>
          rcases e with rfl | rfl
          · exact absurd List.mem_cons_self (hlook _).1
          · exact absurd List.mem_cons_self (hlook _).2
        | reset e => exact absurd e hrs

end Siphon.RateLimit
