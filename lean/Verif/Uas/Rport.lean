import Verif.Core.Via
import Verif.Core.Headers
/-!
# The source address in the top Via of a response

`crates/sip-uas/src/integrated.rs` 778-828 and 885-893.
-/
namespace Siphon.Uas
open Siphon.Via

/-- integrated.rs 885-893 `sent_by_host`. -/
def sentByHost (sentBy : Str) : Str :=
  let s := trim sentBy
  let plain := match splitLast ':' s with
    | some (host, _) => host
    | none => s
  match s with
  | '[' :: t =>
    match splitOnce ']' t with
    | some (host, _) => host
    | none => plain
  | _ => plain

/-- integrated.rs 792-799: a bare `rport` receives the source port.  The flag says whether it did. -/
def fillRport (via : Via) (port : Nat) : Via × Bool :=
  if via.param "rport".toList = some none then
    match via.setParam "rport".toList (some (showNat port)) with
    | some v => (v, true)
    | none => (via, false)
  else (via, false)

/-- integrated.rs 812-819: `received`.  `ip` is `source.ip().to_string()`. -/
def fillReceived (via : Via) (ip : Str) (filled : Bool) : Via × Bool :=
  if (sentByHost via.sentBy != ip || filled) && (via.param "received".toList).isNone then
    match via.setParam "received".toList (some ip) with
    | some v => (v, true)
    | none => (via, false)
  else (via, false)

/-- integrated.rs 778-828 `apply_via_rport_received`, on the headers of the response.  The source address
is its text `ip` and its port. -/
def applyRport (hs : Headers) (ip : Str) (port : Nat) : Headers :=
  match hs.get "Via".toList with
  | none => hs
  | some top =>
    match Via.parse top with
    | none => hs
    | some via =>
      let (via1, filled) := fillRport via port
      let (via2, added) := fillReceived via1 ip filled
      if filled || added then
        match hs.setOrPush "Via".toList via2.show with
        | .ok hs' => hs'
        | .error _ => hs
      else hs

end Siphon.Uas
