import Verif.Daemon.Guard
/-!
# What C122 is about
-/
namespace Siphon.Daemon.Spec

/-- The methods that must not be challenged (RFC 3261 22.1, 22.4) or are looked after elsewhere. -/
def Free (m : Method) : Prop := m = .ack ∨ m = .cancel ∨ m = .options ∨ m = .register

/-- The only thing that happened is a final response with one of these codes. -/
def answeredWith (codes : List Nat) : List Out → Bool
  | [.final _ r] => codes.contains r.code
  | _ => false

/-- The time of the requests does not run backwards, and is from `lo` to `hi`. -/
def Times (lo hi : Nat) : List GEv → Prop
  | [] => lo ≤ hi
  | .request _ _ i _ :: es => lo ≤ i.now ∧ Times i.now hi es
  | _ :: es => Times lo hi es

/-- How many of the events `pick` chooses do not have an outcome that `skip` chooses. -/
def tally (w : World) (c : Cfg) (pick : GEv → Bool) (skip : List Out → Bool) : Guarded → List GEv → Nat
  | _, [] => 0
  | g, e :: es => (if pick e && !skip (g.step w c e).2 then 1 else 0) + tally w c pick skip (g.step w c e).1 es

/-- A request from this address that has to be authenticated. -/
def asksFrom (k : Str) : GEv → Bool
  | .request _ rq _ f => f.peer == k && rq.method != .ack && rq.method != .cancel && rq.method != .options && rq.method != .register
  | _ => false

/-- An INVITE from this address. -/
def invitesFrom (k : Str) : GEv → Bool
  | .request _ rq _ f => f.peer == k && rq.method == .invite
  | _ => false

/-- The history as the daemon behind the guard sees it: each request with some verdict. -/
inductive Lets : List GEv → List Ev → Prop
  | nil : Lets [] []
  | request {txn rq i f gate es es'} : Lets es es' → Lets (.request txn rq i f :: es) (.request txn rq { i with gate := gate } :: es')
  | turn {id i es es'} : Lets es es' → Lets (.turn id i :: es) (.turn id i :: es')
  | expired {d es es'} : Lets es es' → Lets (.expired d :: es) (.expired d :: es')
  | sweep {now es es'} : Lets es es' → Lets (.sweep now :: es) (.sweep now :: es')

end Siphon.Daemon.Spec
