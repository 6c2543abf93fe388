import Verif.RateLimit.Model

/-!
# What the limiter should do
-/

namespace Siphon.RateLimit

/-- Configurations built with the public constructors (starting from `new`). -/
inductive Made : Config → Prop
  | new {r w c} : Config.new r w = .ok c → Made c
  | burst {c n c'} : Made c → c.withBurst n = .ok c' → Made c'
  | idle {c n} : Made c → Made (c.withIdle n)
  | enabled {c e} : Made c → Made (c.withEnabled e)

/-- The refill interval in nanoseconds. -/
def Config.interval (c : Config) : Nat := c.intervalMs * 1000000

/-- An idle bucket is kept at least as long as it takes to refill completely. -/
def Config.keepsLongEnough (c : Config) : Prop := c.burst * c.intervalMs ≤ c.idleSecs * 1000

instance (c : Config) : Decidable c.keepsLongEnough := Nat.decLe _ _

/-- The time of a call, for those that read the clock. -/
def Op.time : Op → Option Nat
  | .check _ t => some t
  | .cleanup t => some t
  | .remaining _ t => some t
  | .info _ t => some t
  | .reset _ => none
  | .clear => none

/-- The clock does not run backwards and shows times from `lo` to `hi`. -/
def Clock (lo hi : Nat) : List Op → Prop
  | [] => lo ≤ hi
  | op :: ops =>
    match op.time with
    | none => Clock lo hi ops
    | some t => lo ≤ t ∧ Clock t hi ops

/-- The calls do not reset key `k`. -/
def NoReset (k : Str) (ops : List Op) : Prop := ∀ op ∈ ops, op ≠ .reset k ∧ op ≠ .clear

/-- Answers to the requests under key `k`, in order. -/
def answers (c : Config) (k : Str) : Limiter → List Op → List Bool
  | _, [] => []
  | s, op :: ops =>
    (match op with
      | .check k' t => if k' = k then [(s.check c k' t).1] else []
      | _ => []) ++ answers c k (s.step c op) ops

/-- How many requests under `k` were admitted. -/
def admitted (c : Config) (k : Str) (s : Limiter) (ops : List Op) : Nat :=
  (answers c k s ops).count true

/-- What happens to one key on its own. -/
inductive Own
  | request (t : Nat)
  | reset
deriving DecidableEq

/-- The requests and resets of key `k` in a history. -/
def own (k : Str) : List Op → List Own
  | [] => []
  | .check k' t :: ops => if k' = k then .request t :: own k ops else own k ops
  | .reset k' :: ops => if k' = k then .reset :: own k ops else own k ops
  | .clear :: ops => .reset :: own k ops
  | _ :: ops => own k ops

/-- A textbook token bucket that knows nothing but its own requests: `burst` tokens at the first
request, one more per whole `interval` since the last refill, never more than `burst`. -/
def bucketAlone (burst interval : Nat) : Option (Nat × Nat) → List Own → List Bool
  | _, [] => []
  | _, .reset :: evs => bucketAlone burst interval none evs
  | st, .request t :: evs =>
    let (tokens, last) := match st with
      | none => (burst, t)
      | some (n, l) => if t - l ≥ interval then (min (n + (t - l) / interval) burst, t) else (n, l)
    if tokens ≥ 1 then true :: bucketAlone burst interval (some (tokens - 1, last)) evs
    else false :: bucketAlone burst interval (some (tokens, last)) evs

/-- A key the limiter tracks at all. -/
def GoodKey (k : Str) : Prop := utf8Len k ≤ 256 ∧ ∀ ch ∈ k, isControl ch = false

end Siphon.RateLimit
