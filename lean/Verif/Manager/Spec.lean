import Verif.Manager.Model
/-!
# Vocabulary for the properties of the transaction manager

Observations on the effects of a history: what was put on the wire and what the users were told.
-/

namespace Siphon.Manager
open Siphon.Fsm

/-- the client transaction an effect belongs to -/
def Out.clientKey : Out → Option Key
  | .attempt k _ _ _ => some k
  | .respond _ _ _ _ => none
  | .provisional _ k _ => some k
  | .final _ k _ => some k
  | .ack _ k _ _ _ => some k
  | .prack _ k _ _ => some k
  | .transportError _ k => some k
  | .terminated _ k _ => some k

/-- the server transaction an effect belongs to -/
def Out.serverKey : Out → Option Key
  | .respond k _ _ _ => some k
  | _ => none

/-- the sends made for client transaction `k`: target and outcome -/
def attemptsOf (k : Key) : List Out → List (Ctx × Bool)
  | [] => []
  | .attempt k' c _ ok :: os => if k' = k then (c, ok) :: attemptsOf k os else attemptsOf k os
  | _ :: os => attemptsOf k os

/-- the final responses handed to the user of `k` -/
def finalsOf (k : Key) : List Out → List Resp
  | [] => []
  | .final _ k' r :: os => if k' = k then r :: finalsOf k os else finalsOf k os
  | _ :: os => finalsOf k os

/-- the ACKs requested for `k`, with the kind -/
def acksOf (k : Key) : List Out → List (Resp × Bool)
  | [] => []
  | .ack _ k' r _ two :: os => if k' = k then (r, two) :: acksOf k os else acksOf k os
  | _ :: os => acksOf k os

/-- how often the user of `k` was told of a transport failure -/
def errorsOf (k : Key) : List Out → Nat
  | [] => 0
  | .transportError _ k' :: os => if k' = k then errorsOf k os + 1 else errorsOf k os
  | _ :: os => errorsOf k os

/-- how often the user of `k` was told that the transaction ended abnormally -/
def endsOf (k : Key) : List Out → Nat
  | [] => 0
  | .terminated _ k' _ :: os => if k' = k then endsOf k os + 1 else endsOf k os
  | _ :: os => endsOf k os

/-- the bytes sent for server transaction `k` -/
def responsesOf (k : Key) : List Out → List Bytes
  | [] => []
  | .respond k' _ b _ :: os => if k' = k then b :: responsesOf k os else responsesOf k os
  | _ :: os => responsesOf k os

/-- queued commands for client transaction `k` -/
def Cmd.clientKey : Cmd → Option Key
  | .clientTimer k _ => some k
  | .clientError k => some k
  | _ => none

def Cmd.serverKey : Cmd → Option Key
  | .serverTimer k _ => some k
  | .serverError k => some k
  | _ => none

/-- operation `op` starts client transaction `k` -/
def Op.starts (k : Key) : Op → Prop
  | .start method via _ targets _ _ =>
    targets ≠ [] ∧ k.isServer = false ∧ method = k.method ∧ via.bind branchFromVia = some k.branch
  | _ => False

/-- RFC 3263 §4.3: `attempts` is what a sender may do with an ordered list of targets.  It always
uses the current target; after a failure it moves to the next one if there is one. -/
def Legal : List Ctx → List (Ctx × Bool) → Prop
  | _, [] => True
  | [], _ :: _ => False
  | [c], (d, _) :: as => d = c ∧ Legal [c] as
  | c :: c' :: cs, (d, ok) :: as => d = c ∧ Legal (if ok then c :: c' :: cs else c' :: cs) as

end Siphon.Manager
