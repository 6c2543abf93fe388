import Verif.RateLimit.Alone

set_option linter.unusedSimpArgs false

/-!
# Rate limiter: C47, C48, C49, C65
-/

namespace Siphon.RateLimit
open Siphon

/-- A configuration for the examples: 6 requests a minute, bursts of 2. -/
def demo : Config :=
  { maxRequests := 6, windowSecs := 60, burst := 2, intervalMs := 10000, perRefill := 1,
    idleSecs := 300, enabled := true }

theorem demo_made : Made demo :=
  .burst (n := 2) (.new (r := 6) (w := 60) rfl) rfl

theorem demo_keeps : demo.keepsLongEnough := by decide

/-- one second -/
def sec (n : Nat) : Nat := n * 1000000000

/-! ## C47: at most the burst plus one request per interval -/

/-- From the moment a key is first used, the limiter admits at most `burst` requests plus one per
whole refill interval that has gone by, whatever else is asked of it meanwhile. -/
theorem C47_bound (c : Config) (hc : Made c) (he : c.enabled = true) (hk : c.keepsLongEnough)
    (k : Str) (pre ops : List Op) (t0 t1 : Nat) (hpre : ∀ t, .check k t ∉ pre)
    (hclk : Clock t0 t1 ops) (hnr : NoReset k ops) :
    admitted c k (Limiter.run c {} pre) ops ≤ c.burst + (t1 - t0) / c.interval := by
  have h0 := untracked c he k pre {} tidy_init rfl hpre
  have := covered_run hc he hk k t0 t0 t1 ops (Limiter.run c {} pre) 0 t0
    (tidy_run c pre _ tidy_init) (by rw [h0]; exact ⟨Nat.le_refl _, Nat.le_refl _, Nat.zero_le _⟩)
    hclk hnr
  rw [Nat.zero_add] at this
  exact this

-- 5 requests in 25 seconds: two at once, one after 10 s and one after 20 s are admitted
example : admitted demo ['a'] {}
    [.check ['a'] (sec 0), .check ['a'] (sec 0), .check ['a'] (sec 0), .check ['b'] (sec 5),
     .check ['a'] (sec 10), .check ['a'] (sec 11), .cleanup (sec 12), .check ['a'] (sec 20)] = 4
    ∧ demo.burst + (sec 20 - sec 0) / demo.interval = 4 := by decide +kernel

/-- In any stretch of time of any history, however it starts, the bound is exceeded by at most one
(the interval that was already running). -/
theorem C47_window (c : Config) (hc : Made c) (he : c.enabled = true) (hk : c.keepsLongEnough)
    (k : Str) (pre ops : List Op) (t0 t1 : Nat) (hpre : Clock 0 t0 pre)
    (hclk : Clock t0 t1 ops) (hnr : NoReset k ops) :
    admitted c k (Limiter.run c {} pre) ops ≤ c.burst + (t1 - t0) / c.interval + 1 := by
  obtain ⟨_, h2⟩ := made_spec hc
  have hI := interval_pos h2
  have hs := sane_run c hc he k t0 pre {} 0 tidy_init hpre (by intro b hb; simp at hb)
  have hcov : Covered c (t0 - c.interval) t0 0 t0 ((Limiter.run c {} pre).buckets.get k) := by
    refine ⟨Nat.sub_le _ _, Nat.le_refl _, ?_⟩
    cases hg : (Limiter.run c {} pre).buckets.get k with
    | none => exact Nat.zero_le _
    | some b =>
      obtain ⟨h3, h4, h5⟩ := hs b hg
      refine ⟨h3, h4, h5, ?_, Or.inl rfl⟩
      by_cases hr : b.lastRefill + c.interval ≤ t0
      · exact Or.inl ⟨rfl, hr⟩
      · refine Or.inr ⟨by omega, ?_⟩
        rw [Nat.zero_add]
        exact Nat.le_trans h3 (Nat.le_add_right _ _)
  have := covered_run hc he hk k (t0 - c.interval) t0 t1 ops (Limiter.run c {} pre) 0 t0
    (tidy_run c pre _ tidy_init) hcov hclk hnr
  have ht : t0 ≤ t1 := clock_le ops t0 t1 hclk
  have hd : (t1 - (t0 - c.interval)) / c.interval ≤ (t1 - t0) / c.interval + 1 := by
    rw [← Nat.add_div_right _ hI]
    exact Nat.div_le_div_right (by omega)
  rw [Nat.zero_add] at this
  have h9 : ticks c.interval (t0 - c.interval) t1 = (t1 - (t0 - c.interval)) / c.interval := rfl
  rw [h9] at this
  generalize (t1 - (t0 - c.interval)) / c.interval = x at *
  generalize (t1 - t0) / c.interval = y at *
  omega

-- the extra one is needed: two tokens left at 19 s and one more at 20 s, all within one second
example : admitted demo ['a'] (Limiter.run demo {} [.check ['a'] (sec 10)])
    [.check ['a'] (sec 19), .check ['a'] (sec 20), .check ['a'] (sec 20)] = 2 := by decide +kernel
example : admitted demo ['a'] (Limiter.run demo {}
      [.check ['a'] 0, .remaining ['a'] (sec 11)])
    [.check ['a'] (sec 20), .check ['a'] (sec 20), .check ['a'] (sec 21), .check ['a'] (sec 22)] = 3
    ∧ demo.burst + (sec 22 - sec 20) / demo.interval = 2 := by decide +kernel

/-- Every preset the crate offers keeps idle keys long enough for the two theorems above. -/
theorem C47_presets : ∀ p ∈ presets, ∃ c, p = .ok c ∧ Made c ∧ c.enabled = true ∧
    c.keepsLongEnough ∧ 1 ≤ c.burst := by
  intro p hp
  simp only [presets, List.mem_cons, List.not_mem_nil, or_false] at hp
  rcases hp with rfl | rfl | rfl | rfl | rfl
  · exact ⟨_, rfl, .idle (n := 600) (.burst (n := 3) (.new (r := 10) (w := 300) rfl) rfl),
      rfl, by decide, by decide⟩
  · exact ⟨_, rfl, .idle (n := 1800) (.burst (n := 10) (.new (r := 60) (w := 3600) rfl) rfl),
      rfl, by decide, by decide⟩
  · exact ⟨_, rfl, .idle (n := 300) (.burst (n := 20) (.new (r := 100) (w := 60) rfl) rfl),
      rfl, by decide, by decide⟩
  · exact ⟨_, rfl, .idle (n := 300) (.burst (n := 10) (.new (r := 30) (w := 60) rfl) rfl),
      rfl, by decide, by decide⟩
  · exact ⟨_, rfl, .new (r := 100) (w := 60) rfl, rfl, by decide, by decide⟩

/-- Without the hypothesis on the idle timeout the bound is false: one request per 100 s, idle
buckets dropped after 10 s, and two requests 50 s apart are both admitted. -/
theorem C47_needs_idle : ∃ c, Made c ∧ c.enabled = true ∧ ∃ ops t1, Clock 0 t1 ops ∧
    NoReset ['a'] ops ∧ ¬ admitted c ['a'] {} ops ≤ c.burst + (t1 - 0) / c.interval := by
  refine ⟨_, .idle (n := 10) (.new (r := 1) (w := 100) rfl), rfl,
    [.check ['a'] 0, .cleanup (sec 50), .check ['a'] (sec 50)], sec 50, ?_, ?_, ?_⟩
  · simp [Clock, Op.time, sec]
  · simp [NoReset]
  · decide +kernel

/-- Requests at least one interval apart are all admitted, and so are the first `burst` requests,
as long as the key can be tracked at all. -/
theorem C47_admits (c : Config) (hc : Made c) (he : c.enabled = true) (hk : c.keepsLongEnough)
    (hb : 1 ≤ c.burst) (k : Str) (hg : GoodKey k) (ks : List Str) (hks : ks.length ≤ 100000)
    (t0 t1 : Nat) (ops : List Op) (hclk : Clock t0 t1 ops)
    (hck : ∀ k t, .check k t ∈ ops → k ∈ ks)
    (hlook : ∀ t, .remaining k t ∉ ops ∧ .info k t ∉ ops) :
    (∀ a ∈ (answers c k {} ops).take c.burst, a = true) ∧
    ((own k ops).Pairwise (fun e e' => ∀ t t', e = .request t → e' = .request t' →
        t + c.interval ≤ t') → ∀ a ∈ answers c k {} ops, a = true) := by
  have e := alone_run hc he hk hb k hg ks hks t1 ops {} t0 none tidy_init
    (by simp [Tbl.keys]) hck hlook hclk rfl
  rw [e]
  have hI := interval_pos (made_spec hc).2
  constructor
  · -- as many requests as there are tokens
    have key : ∀ (evs : List Own) (m : Nat) (st : Option (Nat × Nat)), m ≤ c.burst →
        (∀ p, st = some p → m ≤ p.1) →
        ∀ a ∈ (bucketAlone c.burst c.interval st evs).take m, a = true := by
      intro evs
      induction evs with
      | nil => intro m st _ _ a ha; cases st <;> simp [bucketAlone] at ha
      | cons ev evs ih =>
        intro m st hm hst a ha
        cases m with
        | zero => simp at ha
        | succ m =>
          cases ev with
          | reset =>
            have : bucketAlone c.burst c.interval st (.reset :: evs)
                = bucketAlone c.burst c.interval none evs := by cases st <;> rfl
            rw [this] at ha
            exact ih (m + 1) none hm (by simp) a ha
          | request t =>
            have hr : m + 1 ≤ (aloneRefill c.burst c.interval st t).1 := by
              match st, hst with
              | none, _ => exact hm
              | some (n, l), hst =>
                have := hst (n, l) rfl
                simp only [] at this
                simp only [aloneRefill]
                split
                · exact Nat.le_min.2 ⟨Nat.le_trans this (Nat.le_add_right _ _), hm⟩
                · exact this
            rw [bucketAlone_request, if_pos (by omega), List.take_succ_cons, List.mem_cons] at ha
            rcases ha with rfl | ha
            · rfl
            · refine ih m _ (by omega) ?_ a ha
              intro p hp
              simp only [Option.some.injEq] at hp
              subst hp
              simp only []
              omega
    exact key _ _ none (Nat.le_refl _) (by simp)
  · -- a token comes back before every further request
    have key : ∀ (evs : List Own) (st : Option (Nat × Nat)),
        evs.Pairwise (fun e e' => ∀ t t', e = .request t → e' = .request t' →
          t + c.interval ≤ t') →
        (∀ n l, st = some (n, l) → ∀ t, .request t ∈ evs → l + c.interval ≤ t) →
        ∀ a ∈ bucketAlone c.burst c.interval st evs, a = true := by
      intro evs
      induction evs with
      | nil => intro st _ _ a ha; cases st <;> simp [bucketAlone] at ha
      | cons ev evs ih =>
        intro st hp hst a ha
        rw [List.pairwise_cons] at hp
        cases ev with
        | reset =>
          have : bucketAlone c.burst c.interval st (.reset :: evs)
              = bucketAlone c.burst c.interval none evs := by cases st <;> rfl
          rw [this] at ha
          exact ih none hp.2 (by simp) a ha
        | request t =>
          have hr : 1 ≤ (aloneRefill c.burst c.interval st t).1 ∧
              (aloneRefill c.burst c.interval st t).2 = t := by
            match st, hst with
            | none, _ => exact ⟨hb, rfl⟩
            | some (n, l), hst =>
              have hl := hst n l rfl t (by simp)
              have hge : t - l ≥ c.interval := by omega
              simp only [aloneRefill, hge, if_true, and_true]
              refine Nat.le_min.2 ⟨?_, hb⟩
              have : 1 ≤ (t - l) / c.interval := (Nat.le_div_iff_mul_le hI).2 (by omega)
              exact Nat.le_trans this (Nat.le_add_left _ _)
          rw [bucketAlone_request, if_pos hr.1, List.mem_cons] at ha
          rcases ha with rfl | ha
          · rfl
          · refine ih _ hp.2 ?_ a ha
            intro n l hnl t' ht'
            simp only [Option.some.injEq, Prod.mk.injEq] at hnl
            rw [← hnl.2, hr.2]
            exact hp.1 _ ht' t t' rfl rfl
    intro hp
    exact key _ none hp (by simp)

-- spaced requests, and a burst of two
example : answers demo ['a'] {} [.check ['a'] 0, .check ['b'] 0, .check ['a'] (sec 10),
    .check ['a'] (sec 20), .check ['a'] (sec 30)] = [true, true, true, true] := by decide +kernel
example : (answers demo ['a'] {} [.check ['a'] 0, .check ['a'] 0, .check ['a'] 0]).take 2
    = [true, true] := by decide +kernel

/-- A disabled limiter admits every request under a valid key; invalid keys are always refused. -/
theorem C47_disabled (c : Config) (s : Limiter) (k : Str) (t : Nat) :
    (¬ GoodKey k → (s.check c k t).1 = false) ∧
    (c.enabled = false → GoodKey k → (s.check c k t).1 = true) :=
  ⟨fun h => (check_bad c s k t h).1, fun he h => (check_disabled c s k t he h).1⟩

example : (Limiter.check .disabled {} ['a'] 0).1 = true ∧
    (Limiter.check .disabled {} ['\n'] 0).1 = false := by decide +kernel

/-! ## C48: keys do not interfere -/

/-- Whatever the limiter is asked about other keys, the answers under `k` are those of a token
bucket that only ever sees the requests and resets of `k` itself. -/
theorem C48_refines (c : Config) (hc : Made c) (he : c.enabled = true) (hk : c.keepsLongEnough)
    (hb : 1 ≤ c.burst) (k : Str) (hg : GoodKey k) (ks : List Str) (hks : ks.length ≤ 100000)
    (t0 t1 : Nat) (ops : List Op) (hclk : Clock t0 t1 ops)
    (hck : ∀ k t, .check k t ∈ ops → k ∈ ks)
    (hlook : ∀ t, .remaining k t ∉ ops ∧ .info k t ∉ ops) :
    answers c k {} ops = bucketAlone c.burst c.interval none (own k ops) :=
  alone_run hc he hk hb k hg ks hks t1 ops {} t0 none tidy_init (by simp [Tbl.keys]) hck hlook
    hclk rfl

/-- Two histories in which the same things happen to `k` give the same answers under `k`. -/
theorem C48_independent (c : Config) (hc : Made c) (he : c.enabled = true)
    (hk : c.keepsLongEnough) (hb : 1 ≤ c.burst) (k : Str) (hg : GoodKey k) (ks : List Str)
    (hks : ks.length ≤ 100000) (t0 t1 : Nat) (ops ops' : List Op)
    (hclk : Clock t0 t1 ops) (hclk' : Clock t0 t1 ops')
    (hck : ∀ k t, .check k t ∈ ops ++ ops' → k ∈ ks)
    (hlook : ∀ t, .remaining k t ∉ ops ++ ops' ∧ .info k t ∉ ops ++ ops')
    (hown : own k ops = own k ops') :
    answers c k {} ops = answers c k {} ops' := by
  rw [C48_refines c hc he hk hb k hg ks hks t0 t1 ops hclk
      (fun x t hm => hck x t (by simp [hm]))
      (fun t => ⟨fun hm => (hlook t).1 (by simp [hm]), fun hm => (hlook t).2 (by simp [hm])⟩),
    C48_refines c hc he hk hb k hg ks hks t0 t1 ops' hclk'
      (fun x t hm => hck x t (by simp [hm]))
      (fun t => ⟨fun hm => (hlook t).1 (by simp [hm]), fun hm => (hlook t).2 (by simp [hm])⟩),
    hown]

example : answers demo ['a'] {} [.check ['a'] 0, .check ['b'] 0, .check ['b'] 0, .check ['b'] 0,
      .check ['a'] (sec 1), .reset ['b'], .check ['a'] (sec 2), .remaining ['b'] (sec 3),
      .reset ['a'], .check ['a'] (sec 4)] = [true, true, false, true] ∧
    bucketAlone 2 demo.interval none
      (own ['a'] [.check ['a'] 0, .check ['b'] 0, .check ['a'] (sec 1), .check ['a'] (sec 2),
        .reset ['a'], .check ['a'] (sec 4)]) = [true, true, false, true] := by decide +kernel

/-- One request per 100 s, idle buckets dropped after 10 s. -/
def hasty : Config :=
  { maxRequests := 1, windowSecs := 100, burst := 1, intervalMs := 100000, perRefill := 1,
    idleSecs := 10, enabled := true }

/-- Where the limiter is after one request under `a`, one under `b` 50 s later, and `m` more under
`b`. -/
def busy (m : Nat) : Limiter :=
  { buckets := [(['b'], { tokens := 0, lastRefill := sec 50, lastAccess := sec 50, blocked := m }),
                (['a'], { tokens := 0, lastRefill := 0, lastAccess := 0, blocked := 0 })],
    total := 2 + m, allowed := 2, blocked := m, cleanups := 0 }

theorem busy_step (m : Nat) (h : m < 1021) :
    (busy m).step hasty (.check ['b'] (sec 50)) = busy (m + 1) := by
  have hv : validateKey ['b'] = .ok () := by decide
  have hm : ¬ (2 + m + 1) % cleanupEvery = 0 := by
    have : (2 + m + 1) % 1024 = 2 + m + 1 := Nat.mod_eq_of_lt (by omega)
    unfold cleanupEvery; omega
  have he : hasty.enabled = true := rfl
  have ht : ∀ b : Bucket, b.tokens = 0 → b.lastRefill = sec 50 → b.lastAccess = sec 50 →
      b.tryConsume hasty (sec 50) = (false, { b with blocked := b.blocked + 1 }) := by
    intro b h1 h2 h3
    have hr : b.refill hasty (sec 50) = b := by
      unfold Bucket.refill
      rw [h2]
      simp [hasty, sec]
    unfold Bucket.tryConsume
    rw [hr]
    cases b
    simp_all
  simp only [Limiter.step, Limiter.check, busy, hv, he, Bool.not_true, Bool.false_eq_true,
    if_false, hm, Tbl.get_cons, if_true]
  rw [ht _ rfl rfl rfl]
  simp [Tbl.update, Nat.add_assoc]

theorem busy_run : ∀ (n m : Nat), m + n ≤ 1021 → ∀ ops,
    answers hasty ['a'] (busy m) (List.replicate n (.check ['b'] (sec 50)) ++ ops)
      = answers hasty ['a'] (busy (m + n)) ops
  | 0, _, _, _ => rfl
  | n + 1, m, h, ops => by
    rw [List.replicate_succ, List.cons_append, answers_cons, busy_step m (by omega),
      busy_run n (m + 1) (by omega), show m + 1 + n = m + (n + 1) by omega]
    rfl

theorem busy_start (n : Nat) (ops : List Op) :
    answers hasty ['a'] {} ([.check ['a'] 0] ++
        List.replicate (n + 1) (.check ['b'] (sec 50)) ++ ops)
      = [true] ++ answers hasty ['a'] (busy 0) (List.replicate n (.check ['b'] (sec 50)) ++ ops) := by
  have h0 : (Limiter.step hasty (Limiter.step hasty {} (.check ['a'] 0))
      (.check ['b'] (sec 50))) = busy 0 := by decide +kernel
  have a1 : answer1 hasty ['a'] {} (.check ['a'] 0) = [true] := by decide +kernel
  have a2 : ∀ s, answer1 hasty ['a'] s (.check ['b'] (sec 50)) = [] := by
    intro s; simp [answer1]
  rw [List.replicate_succ, List.append_assoc, List.cons_append, List.cons_append,
    List.nil_append, answers_cons, answers_cons, h0, a1, a2, List.nil_append]

/-- With an idle timeout shorter than the time to refill, traffic under one key changes the answers
under another: the 1024th request sweeps the table and hands the first key a fresh bucket. -/
theorem C48_needs_idle : ∃ c, Made c ∧ c.enabled = true ∧ 1 ≤ c.burst ∧
    ∃ ops ops', own ['a'] ops = own ['a'] ops' ∧ Clock 0 (sec 50) ops ∧ Clock 0 (sec 50) ops' ∧
      (∀ k t, .check k t ∈ ops ++ ops' → k ∈ [['a'], ['b']]) ∧
      answers c ['a'] {} ops ≠ answers c ['a'] {} ops' := by
  refine ⟨hasty, .idle (n := 10) (.new (r := 1) (w := 100) rfl), rfl, by decide,
    [.check ['a'] 0] ++ List.replicate 1022 (.check ['b'] (sec 50)) ++ [.check ['a'] (sec 50)],
    [.check ['a'] 0, .check ['a'] (sec 50)], ?_, ?_, ?_, ?_, ?_⟩
  · have h : ∀ n (l : List Op), own ['a'] (List.replicate n (.check ['b'] (sec 50)) ++ l) = own ['a'] l := by
      intro n l
      induction n with
      | zero => rfl
      | succ n ih =>
        rw [List.replicate_succ, List.cons_append]
        simp only [own, List.cons.injEq, and_true, if_neg (show ¬ ('b' = 'a') by decide)]
        exact ih
    simp only [List.cons_append, List.nil_append, List.append_assoc, own, if_true, h]
  · have h : ∀ n (l : List Op), Clock (sec 50) (sec 50) l →
        Clock (sec 50) (sec 50) (List.replicate n (.check ['b'] (sec 50)) ++ l) := by
      intro n l hl
      induction n with
      | zero => exact hl
      | succ n ih => exact ⟨Nat.le_refl _, ih⟩
    refine ⟨Nat.zero_le _, ?_⟩
    exact ⟨Nat.zero_le _, h 1021 _ ⟨Nat.le_refl _, Nat.le_refl _⟩⟩
  · exact ⟨Nat.zero_le _, Nat.zero_le _, Nat.le_refl _⟩
  · intro k t hm
    simp only [List.mem_append, List.mem_cons, List.not_mem_nil, or_false, List.mem_replicate,
      Op.check.injEq] at hm
    rcases hm with ((hm | hm) | hm) | hm | hm
    · simp [hm.1]
    · simp [hm.2.1]
    · simp [hm.1]
    · simp [hm.1]
    · simp [hm.1]
  · have e := busy_start 1021 [.check ['a'] (sec 50)]
    rw [busy_run 1021 0 (by omega)] at e
    rw [e]
    decide +kernel

/-- Asking how many requests are left is not free of effect: it can bring a later refill forward
(here the request at 29 s is admitted only because of the query at 19 s). -/
theorem C48_look_matters :
    answers { demo with burst := 1 } ['a'] {} [.check ['a'] 0, .remaining ['a'] (sec 19),
      .check ['a'] (sec 20), .check ['a'] (sec 29)] = [true, true, true] ∧
    answers { demo with burst := 1 } ['a'] {} [.check ['a'] 0,
      .check ['a'] (sec 20), .check ['a'] (sec 29)] = [true, true, false] := by decide +kernel

/-! ## C49: the table is bounded -/

/-- At every point of every history the limiter tracks at most 100000 keys, each once, none longer
than 256 bytes and none with a control character. -/
theorem C49_bounded (c : Config) (ops : List Op) :
    (Limiter.run c {} ops).buckets.length ≤ 100000 ∧
    ((Limiter.run c {} ops).buckets.map (·.1)).Nodup ∧
    ∀ k b, (k, b) ∈ (Limiter.run c {} ops).buckets →
      utf8Len k ≤ 256 ∧ ∀ ch ∈ k, isControl ch = false := by
  have h := tidy_run c ops {} tidy_init
  exact ⟨h.bound, h.nodup, fun k b hm => h.good k (List.mem_map_of_mem (f := (·.1)) hm)⟩

example : (Limiter.run demo {} [.check ['a'] 0, .check ['\r'] 0,
    .check ['b'] 0]).buckets.map (·.1) = [['b'], ['a']] := by decide +kernel

/-- A key that is not tracked is refused once the table is full. -/
theorem C49_full_refuses (c : Config) (he : c.enabled = true) (s : Limiter) (k : Str) (t : Nat)
    (hk : k ∉ s.buckets.map (·.1)) (hfull : 100000 ≤ s.buckets.length)
    (hs : (s.total + 1) % 1024 ≠ 0) :
    (s.check c k t).1 = false ∧ (s.check c k t).2.buckets = s.buckets := by
  by_cases hg : GoodKey k
  · obtain ⟨h1, h2⟩ := check_enabled c s k t he hg
    have hsw : s.swept c t = s.buckets := by
      unfold Limiter.swept
      rw [if_neg (show ¬ (s.total + 1) % cleanupEvery = 0 from hs)]
    rw [hsw] at h1 h2
    have hn : s.buckets.get k = none := (Tbl.get_eq_none_iff _ _).2 hk
    have hc : s.buckets.get k = none ∧ s.buckets.length ≥ maxTrackedKeys := ⟨hn, hfull⟩
    rw [if_pos hc] at h1 h2
    exact ⟨h1, h2⟩
  · exact check_bad c s k t hg

-- a full table exists
example : ∃ s : Limiter, ['a'] ∉ s.buckets.map (·.1) ∧ 100000 ≤ s.buckets.length ∧
    (s.total + 1) % 1024 ≠ 0 :=
  ⟨{ buckets := List.replicate 100000 (['b'], Bucket.fresh 0 0) },
    fun h => by
      obtain ⟨p, hp, e⟩ := List.mem_map.1 h
      rw [List.eq_of_mem_replicate hp] at e
      exact absurd e (by decide),
    Nat.le_of_eq List.length_replicate.symm, by decide⟩

/-! ## C65: the counters add up -/

/-- All answers given in a history. -/
def allAnswers (c : Config) : Limiter → List Op → List Bool
  | _, [] => []
  | s, op :: ops =>
    (match op with | .check k t => [(s.check c k t).1] | _ => []) ++ allAnswers c (s.step c op) ops

/-- The counters show exactly how many requests were admitted and how many refused. -/
theorem C65_metrics (c : Config) (ops : List Op) :
    (Limiter.run c {} ops).allowed = (allAnswers c {} ops).count true ∧
    (Limiter.run c {} ops).blocked = (allAnswers c {} ops).count false := by
  have step : ∀ (s : Limiter) (op : Op),
      (s.step c op).allowed = s.allowed +
        (match op with | .check k t => [(s.check c k t).1] | _ => []).count true ∧
      (s.step c op).blocked = s.blocked +
        (match op with | .check k t => [(s.check c k t).1] | _ => []).count false := by
    intro s op
    cases op with
    | check k t =>
      simp only [Limiter.step]
      unfold Limiter.check
      have hcl : ∀ s : Limiter, (s.cleanup c t).allowed = s.allowed ∧ (s.cleanup c t).blocked = s.blocked := by
        intro s; unfold Limiter.cleanup; simp only []; split <;> exact ⟨rfl, rfl⟩
      cases validateKey k with
      | error e => exact ⟨rfl, rfl⟩
      | ok u =>
        simp only []
        split
        · exact ⟨rfl, rfl⟩
        · have hs1 : ∀ s1 : Limiter, s1.allowed = s.allowed → s1.blocked = s.blocked →
              ∀ (b : Bool) (t : Tbl Str Bucket),
              (if b = true then { s1 with buckets := t, allowed := s1.allowed + 1 }
                else { s1 with buckets := t, blocked := s1.blocked + 1 } : Limiter).allowed
                = s.allowed + [b].count true ∧
              (if b = true then { s1 with buckets := t, allowed := s1.allowed + 1 }
                else { s1 with buckets := t, blocked := s1.blocked + 1 } : Limiter).blocked
                = s.blocked + [b].count false := by
            intro s1 h1 h2 b t
            cases b <;> simp [h1, h2]
          generalize hs : (if (s.total + 1) % cleanupEvery = 0
            then Limiter.cleanup c { s with total := s.total + 1 } t
            else { s with total := s.total + 1 }) = s1
          have ha : s1.allowed = s.allowed ∧ s1.blocked = s.blocked := by
            rw [← hs]; split
            · exact hcl _
            · exact ⟨rfl, rfl⟩
          cases s1.buckets.get k with
          | none =>
            simp only []
            split
            · exact ⟨ha.1, by simp [ha.2]⟩
            · exact hs1 s1 ha.1 ha.2 _ _
          | some b => exact hs1 s1 ha.1 ha.2 _ _
    | cleanup t =>
      simp only [Limiter.step, Limiter.cleanup, List.count_nil, Nat.add_zero]
      split <;> exact ⟨rfl, rfl⟩
    | remaining k t =>
      simp only [Limiter.step, Limiter.remaining, List.count_nil, Nat.add_zero]
      split <;> exact ⟨rfl, rfl⟩
    | info k t =>
      simp only [Limiter.step, Limiter.info, List.count_nil, Nat.add_zero]
      split
      · exact ⟨rfl, rfl⟩
      · split
        · exact ⟨rfl, rfl⟩
        · split <;> exact ⟨rfl, rfl⟩
    | reset k => exact ⟨rfl, rfl⟩
    | clear => exact ⟨rfl, rfl⟩
  have run : ∀ (ops : List Op) (s : Limiter),
      (Limiter.run c s ops).allowed = s.allowed + (allAnswers c s ops).count true ∧
      (Limiter.run c s ops).blocked = s.blocked + (allAnswers c s ops).count false := by
    intro ops
    induction ops with
    | nil => intro s; exact ⟨rfl, rfl⟩
    | cons op ops ih =>
      intro s
      have h1 := step s op
      have h2 := ih (s.step c op)
      simp only [Limiter.run, List.foldl_cons, allAnswers, List.count_append] at h2 ⊢
      constructor
      · rw [h2.1, h1.1, Nat.add_assoc]
      · rw [h2.2, h1.2, Nat.add_assoc]
  have := run ops {}
  simpa using this

example : allAnswers demo {} [.check ['a'] 0, .check ['a'] 0, .check ['a'] 0, .check ['\n'] 0]
    = [true, true, false, false] := by decide +kernel

end Siphon.RateLimit
