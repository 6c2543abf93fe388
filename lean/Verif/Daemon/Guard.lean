import Verif.Daemon.Model
import Verif.RateLimit.Model
/-!
# The daemon behind its authenticator and rate limiters (C122)

`dispatcher.rs` 87-140 `check_auth` with the authenticator of `services.rs` 112-150, and the limiters of `dispatcher.rs` 115-120 and
`handlers/invite.rs` 1093-1098.  The result is the `Gate` that comes with a request in `Model.lean`.

Simplifications: the clock is read once for each request (`Info.now`, in nanoseconds); the answers of handlers for other methods than
those of `Model.lean` are left out, but their requests are authenticated and counted.
-/
namespace Siphon.Daemon
open Siphon.Bridge (putAll answerTo)

/-- sip-ratelimit lib.rs 278-284 `auth_preset` (services.rs 194). -/
def authLimit : RateLimit.Config := ⟨10, 300, 3, 30000, 1, 600, true⟩

/-- sip-ratelimit lib.rs 305-311 `invite_preset` (services.rs 196). -/
def inviteLimit : RateLimit.Config := ⟨30, 60, 10, 2000, 1, 300, true⟩

/-- These are the first and the fourth of the presets of the rate limiter's model. -/
example : RateLimit.presets[0]? = some (.ok authLimit) ∧ RateLimit.presets[3]? = some (.ok inviteLimit) := by decide +kernel

/-- The daemon with `authenticator`, `auth_rate_limiter` and `invite_rate_limiter` (services.rs 57-93). -/
structure Guarded where
  st : St
  auth : Option Auth.Server
  attempts : RateLimit.Limiter
  invites : RateLimit.Limiter

/-- services.rs 98-219: the start.  The authenticator is there if the configuration says so. -/
def Guarded.start (auth : Option Auth.Server) : Guarded := ⟨init, auth, {}, {}⟩

/-- dispatcher.rs 148-169 and invite.rs 1667-1683 `send_rate_limited`. -/
def busy (rq : Request) : Response :=
  ⟨503, "Service Unavailable".toList, putAll (answerTo rq.headers ++ [("Retry-After", "30".toList)]) .empty, []⟩

/-- What the outside decides: the hash function, the order in which the nonce table is iterated. -/
structure World where
  hash : Auth.Hash
  order : List Str → List Str

/-- What comes with a request besides `Info`: the text of the peer's IP address, and the nonce and the tag of a challenge. -/
structure From where
  peer : Str
  nonce : Str
  tag : Str

/-- dispatcher.rs 123-139: the verdict of the authenticator.  An error of the verification or of the challenge is only logged. -/
def Guarded.verdict (w : World) (g : Guarded) (s : Auth.Server) (rq : Request) (f : From) (now : Nat) : Gate × Guarded :=
  match s.verify w.hash rq rq.headers now with
  | (.ok true, s) => (.pass, { g with auth := some s })
  | (.ok false, s) =>
    match s.challenge w.order rq false f.nonce f.tag now with
    | (.ok r, s) => (.refused r, { g with auth := some s })
    | (.error _, s) => (.silent, { g with auth := some s })
  | (.error _, s) => (.silent, { g with auth := some s })

/-- dispatcher.rs 87-140 `check_auth`. -/
def Guarded.checkAuth (w : World) (g : Guarded) (rq : Request) (f : From) (now : Nat) : Gate × Guarded :=
  match g.auth with
  | none => (.pass, g)
  | some s =>
    if exempt rq.method then (.pass, g)
    else
      let (ok, l) := g.attempts.check authLimit f.peer now
      let g := { g with attempts := l }
      if !ok then (.refused (busy rq), g) else g.verdict w s rq f now

/-- invite.rs 1093-1098: the limiter of INVITEs; the handler is there only if calls are enabled. -/
def Guarded.checkInvite (c : Cfg) (g : Guarded) (rq : Request) (f : From) (now : Nat) : Gate × Guarded :=
  if c.calls && rq.method == .invite then
    let (ok, l) := g.invites.check inviteLimit f.peer now
    (if ok then .pass else .refused (busy rq), { g with invites := l })
  else (.pass, g)

/-- Both checks. -/
def Guarded.check (w : World) (c : Cfg) (g : Guarded) (rq : Request) (f : From) (now : Nat) : Gate × Guarded :=
  match g.checkAuth w rq f now with
  | (.pass, g) => g.checkInvite c rq f now
  | x => x

/-- The events: a request with its source, or what else happens to the daemon. -/
inductive GEv
  | request (txn : Nat) (rq : Request) (i : Info) (f : From)
  | turn (id : Nat) (i : Info)
  | expired (d : Dlg.DialogId)
  | sweep (now : Nat)

/-- The daemon alone. -/
def Guarded.inner (c : Cfg) (g : Guarded) (e : Ev) : Guarded × List Out := ({ g with st := (Daemon.step c g.st e).1 }, (Daemon.step c g.st e).2)

/-- dispatcher.rs 172-217 `dispatch`: Max-Forwards comes first, and leaves the authenticator alone. -/
def Guarded.step (w : World) (c : Cfg) (g : Guarded) : GEv → Guarded × List Out
  | .request txn rq i f =>
    if noHops rq.headers then g.inner c (.request txn rq i)
    else
      let (gate, g) := g.check w c rq f i.now
      g.inner c (.request txn rq { i with gate := gate })
  | .turn id i => g.inner c (.turn id i)
  | .expired d => g.inner c (.expired d)
  | .sweep now => g.inner c (.sweep now)

def Guarded.run (w : World) (c : Cfg) : Guarded → List GEv → Guarded × List Out
  | g, [] => (g, [])
  | g, e :: es =>
    let (g, o) := g.step w c e
    let (g', o') := Guarded.run w c g es
    (g', o ++ o')

end Siphon.Daemon
