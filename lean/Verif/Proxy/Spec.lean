import Verif.Proxy.Model
import Verif.Core.HeadersSpec
import Verif.Base.TextSpec
/-!
# Specification of the forking proxy

The history of a context is a list of calls (`Op`).  `taken` says which of them deliver a final response to a
branch the context knows: this is the record of what every branch answered, against which the theorems
compare what goes upstream.
-/
namespace Siphon.Proxy.Spec
open Siphon

/-- The response is of class `k`, that is between `k00` and `k99`. -/
def Class (r : Response) (k : Nat) : Prop := 100 * k ≤ r.code ∧ r.code < 100 * k + 100

/-- RFC 3261 16.7: of the final responses `l`, in the order received, `r` is the one to keep: the last 6xx;
without a 6xx, the last 2xx; without either, the first one of the lowest class. -/
def Keeps (l : List Response) (r : Response) : Prop :=
  (Class r 6 ∧ ∃ pre post, l = pre ++ r :: post ∧ ∀ x ∈ post, ¬ Class x 6) ∨
  ((∀ x ∈ l, ¬ Class x 6) ∧ Class r 2 ∧ ∃ pre post, l = pre ++ r :: post ∧ ∀ x ∈ post, ¬ Class x 2) ∨
  ((∀ x ∈ l, ¬ Class x 6 ∧ ¬ Class x 2) ∧ ∃ pre post, l = pre ++ r :: post ∧
    (∀ x ∈ pre, ∃ k, Class r k ∧ ∃ j, Class x j ∧ k < j) ∧ ∀ x ∈ post, ∃ k, Class r k ∧ ∃ j, Class x j ∧ k ≤ j)

/-- The branch was added to the context. -/
def Knows (c : Ctx) (id : Str) : Prop := id ∈ c.branches.keys

/-- The final response a call delivers, and the branch it is for.  Timer C delivers a 408 of the proxy's own
to a branch that is still ringing, a transport error a 503 to a branch that has not finished. -/
def taken1 (c : Ctx) : Op → Option (Str × Response)
  | .add _ _ => none
  | .response id r => if id ∈ c.branches.keys ∧ 200 ≤ r.code then some (id, r) else none
  | .timerC id =>
    match c.branches.get id, synthetic 408 "Request Timeout" c.original with
    | some b, some r => if id ∈ c.armed ∧ b.state = .proceeding then some (id, r) else none
    | _, _ => none
  | .transportError id =>
    match c.branches.get id, synthetic 503 "Service Unavailable" c.original with
    | some b, some r => if b.state ≠ .completed ∧ b.state ≠ .cancelled then some (id, r) else none
    | _, _ => none

/-- The final responses of a history, in order, with their branches. -/
def taken (c : Ctx) : List Op → List (Str × Response)
  | [] => []
  | o :: os => (taken1 c o).toList ++ taken (c.step o).2 os

/-- The call is not an `add_branch`. -/
def NotAdd : Op → Prop
  | .add _ _ => False
  | _ => True

/-- A new context with these branches, added one after the other before anything else happens. -/
def Fresh (c : Ctx) (ids : List Str) : Prop :=
  ids.Nodup ∧ c.branches.keys.Perm ids ∧ c.outstanding = ids.length ∧ c.bestFinal = none ∧ c.terminated = false

/-- A final response that is neither 2xx nor 6xx. -/
def Plain (r : Response) : Prop := 300 ≤ r.code ∧ r.code < 600

end Siphon.Proxy.Spec
