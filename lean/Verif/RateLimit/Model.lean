import Verif.Base.Text
import Verif.Base.Table

/-!
# Rate limiter (sip-ratelimit)

Times are `Instant`s in nanoseconds.  The bucket's `f64` token count only ever holds whole
numbers not above the burst capacity (at most 1 000 000), where `f64` arithmetic is exact, so it
is a `Nat` here.  Each call reads the clock once here; the code may read it up to three times
within one call.
-/

namespace Siphon.RateLimit

/-- `crates/sip-ratelimit/src/lib.rs:55-62`. -/
def cleanupEvery : Nat := 1024
def maxKeyLength : Nat := 256
def maxTrackedKeys : Nat := 100000
def maxRequestsPerWindow : Nat := 1000000
def maxWindowSecs : Nat := 86400
def maxBurstCapacity : Nat := 10000

/-- `RateLimitError`, `crates/sip-ratelimit/src/lib.rs:66-83` (payloads left out). -/
inductive Err
  | keyTooLong | keyControl | maxRequestsTooLarge | windowTooLarge | burstTooLarge
  | maxRequestsZero | windowZero
deriving DecidableEq, Repr

/-- `validate_key`, `crates/sip-ratelimit/src/lib.rs:119-130`. -/
def validateKey (k : Str) : Except Err Unit :=
  if utf8Len k > maxKeyLength then .error .keyTooLong
  else if k.any isControl then .error .keyControl
  else .ok ()

/-- `RateLimitConfig`, `crates/sip-ratelimit/src/lib.rs:134-157`. -/
structure Config where
  maxRequests : Nat
  windowSecs : Nat
  burst : Nat
  intervalMs : Nat
  perRefill : Nat
  idleSecs : Nat
  enabled : Bool
deriving DecidableEq, Repr

/-- `RateLimitConfig::new`, `crates/sip-ratelimit/src/lib.rs:175-209`. -/
def Config.new (maxRequests windowSecs : Nat) : Except Err Config :=
  if maxRequests = 0 then .error .maxRequestsZero
  else if windowSecs = 0 then .error .windowZero
  else if maxRequests > maxRequestsPerWindow then .error .maxRequestsTooLarge
  else if windowSecs > maxWindowSecs then .error .windowTooLarge
  else
    let interval := (windowSecs * 1000) / maxRequests
    .ok { maxRequests := maxRequests, windowSecs := windowSecs, burst := maxRequests,
          intervalMs := if interval = 0 then 1 else interval,
          perRefill := 1, idleSecs := 300, enabled := true }

/-- `RateLimitConfig::disabled`, `crates/sip-ratelimit/src/lib.rs:241-251`. -/
def Config.disabled : Config :=
  { maxRequests := 0, windowSecs := 0, burst := 0, intervalMs := 0, perRefill := 0, idleSecs := 0,
    enabled := false }

/-- `with_burst_capacity`, `crates/sip-ratelimit/src/lib.rs:254-263`. -/
def Config.withBurst (c : Config) (n : Nat) : Except Err Config :=
  if n > maxBurstCapacity then .error .burstTooLarge else .ok { c with burst := n }

/-- `with_idle_timeout`, `crates/sip-ratelimit/src/lib.rs:266-269`. -/
def Config.withIdle (c : Config) (secs : Nat) : Config := { c with idleSecs := secs }

/-- `with_enabled`, `crates/sip-ratelimit/src/lib.rs:272-275`. -/
def Config.withEnabled (c : Config) (e : Bool) : Config := { c with enabled := e }

/-- `auth_preset`, `register_preset`, `connection_preset`, `invite_preset` and `default`,
`crates/sip-ratelimit/src/lib.rs:278-317`. -/
def presets : List (Except Err Config) :=
  [ (do let c ← Config.new 10 300; let c ← c.withBurst 3; pure (c.withIdle 600)),
    (do let c ← Config.new 60 3600; let c ← c.withBurst 10; pure (c.withIdle 1800)),
    (do let c ← Config.new 100 60; let c ← c.withBurst 20; pure (c.withIdle 300)),
    (do let c ← Config.new 30 60; let c ← c.withBurst 10; pure (c.withIdle 300)),
    Config.new 100 60 ]

/-- `TokenBucket`, `crates/sip-ratelimit/src/lib.rs:322-334` (`last_warn` only serves logging and
is left out). -/
structure Bucket where
  tokens : Nat
  lastRefill : Nat
  lastAccess : Nat
  blocked : Nat
deriving DecidableEq, Repr

/-- `TokenBucket::new`, `crates/sip-ratelimit/src/lib.rs:337-346`. -/
def Bucket.fresh (tokens now : Nat) : Bucket :=
  { tokens := tokens, lastRefill := now, lastAccess := now, blocked := 0 }

/-- `TokenBucket::refill`, `crates/sip-ratelimit/src/lib.rs:363-381`. -/
def Bucket.refill (c : Config) (now : Nat) (b : Bucket) : Bucket :=
  if c.intervalMs = 0 ∨ c.perRefill = 0 ∨ c.burst = 0 then b
  else
    let elapsed := now - b.lastRefill
    if elapsed ≥ c.intervalMs * 1000000 then
      let intervals := elapsed / 1000000 / c.intervalMs
      { b with tokens := min (b.tokens + intervals * c.perRefill) c.burst, lastRefill := now }
    else b

/-- `TokenBucket::try_consume`, `crates/sip-ratelimit/src/lib.rs:349-360`. -/
def Bucket.tryConsume (c : Config) (now : Nat) (b : Bucket) : Bool × Bucket :=
  let b := b.refill c now
  let b := { b with lastAccess := now }
  if b.tokens ≥ 1 then (true, { b with tokens := b.tokens - 1 })
  else (false, { b with blocked := b.blocked + 1 })

/-- `TokenBucket::is_idle`, `crates/sip-ratelimit/src/lib.rs:384-386`. -/
def Bucket.isIdle (c : Config) (now : Nat) (b : Bucket) : Bool :=
  now - b.lastAccess > c.idleSecs * 1000000000

/-- `RateLimiter` with its `RateLimitMetrics`, `crates/sip-ratelimit/src/lib.rs:391-400,483-490`. -/
structure Limiter where
  buckets : Tbl Str Bucket := []
  total : Nat := 0
  allowed : Nat := 0
  blocked : Nat := 0
  cleanups : Nat := 0
deriving DecidableEq

/-- `cleanup_idle`, `crates/sip-ratelimit/src/lib.rs:639-668`. -/
def Limiter.cleanup (c : Config) (s : Limiter) (now : Nat) : Limiter :=
  let s := { s with cleanups := s.cleanups + 1 }
  if !c.enabled then s
  else { s with buckets := s.buckets.filter fun p => !p.2.isIdle c now }

/-- `check_rate_limit`, `crates/sip-ratelimit/src/lib.rs:520-581`. -/
def Limiter.check (c : Config) (s : Limiter) (k : Str) (now : Nat) : Bool × Limiter :=
  match validateKey k with
  | .error _ => (false, { s with blocked := s.blocked + 1 })
  | .ok () =>
    let s := { s with total := s.total + 1 }
    if !c.enabled then (true, { s with allowed := s.allowed + 1 })
    else
      let s := if s.total % cleanupEvery = 0 then s.cleanup c now else s
      match s.buckets.get k with
      | none =>
        if s.buckets.length ≥ maxTrackedKeys then (false, { s with blocked := s.blocked + 1 })
        else
          let (ok, b) := (Bucket.fresh c.burst now).tryConsume c now
          let s := { s with buckets := s.buckets.insert k b }
          (ok, if ok then { s with allowed := s.allowed + 1 } else { s with blocked := s.blocked + 1 })
      | some b =>
        let (ok, b) := b.tryConsume c now
        let s := { s with buckets := s.buckets.update k fun _ => b }
        (ok, if ok then { s with allowed := s.allowed + 1 } else { s with blocked := s.blocked + 1 })

/-- `remaining_tokens`, `crates/sip-ratelimit/src/lib.rs:675-681`. -/
def Limiter.remaining (c : Config) (s : Limiter) (k : Str) (now : Nat) : Option Nat × Limiter :=
  match s.buckets.get k with
  | none => (none, s)
  | some b =>
    let b := b.refill c now
    (some b.tokens, { s with buckets := s.buckets.update k fun _ => b })

/-- `RateLimitInfo` without the wall-clock `reset_at`, `crates/sip-ratelimit/src/lib.rs:448-457`. -/
structure Info where
  limit : Nat
  remaining : Nat
  retryAfter : Nat
deriving DecidableEq, Repr

/-- `get_limit_info`, `crates/sip-ratelimit/src/lib.rs:705-752`. -/
def Limiter.info (c : Config) (s : Limiter) (k : Str) (now : Nat) : Option Info × Limiter :=
  if !c.enabled then (none, s)
  else
    match s.buckets.get k with
    | none => (none, s)
    | some b =>
      let b := b.refill c now
      let s := { s with buckets := s.buckets.update k fun _ => b }
      if c.intervalMs = 0 ∨ c.perRefill = 0 ∨ c.burst = 0 then
        (some { limit := c.maxRequests, remaining := b.tokens, retryAfter := 0 }, s)
      else
        let refills := (c.burst - b.tokens + (c.perRefill - 1)) / c.perRefill
        let toFull := if b.tokens < c.burst then refills * c.intervalMs else 0
        (some { limit := c.maxRequests, remaining := b.tokens, retryAfter := toFull / 1000 }, s)

/-- `reset`, `crates/sip-ratelimit/src/lib.rs:684-686`. -/
def Limiter.reset (s : Limiter) (k : Str) : Limiter := { s with buckets := s.buckets.remove k }

/-- `clear`, `crates/sip-ratelimit/src/lib.rs:689-691`. -/
def Limiter.clear (s : Limiter) : Limiter := { s with buckets := [] }

/-- The calls a program can make on a limiter. -/
inductive Op
  | check (k : Str) (now : Nat)
  | cleanup (now : Nat)
  | remaining (k : Str) (now : Nat)
  | info (k : Str) (now : Nat)
  | reset (k : Str)
  | clear
deriving DecidableEq

def Limiter.step (c : Config) (s : Limiter) : Op → Limiter
  | .check k t => (s.check c k t).2
  | .cleanup t => s.cleanup c t
  | .remaining k t => (s.remaining c k t).2
  | .info k t => (s.info c k t).2
  | .reset k => s.reset k
  | .clear => s.clear

def Limiter.run (c : Config) (s : Limiter) (ops : List Op) : Limiter := ops.foldl (step c) s

end Siphon.RateLimit
