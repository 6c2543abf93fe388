import Verif.Core.Headers
import Verif.Base.Num
/-!
# Max-Forwards and branch tokens

Model of `crates/sip-core/src/max_forwards.rs` (non-test part, lines 1-158).
-/
namespace Siphon

/-- max_forwards.rs 13 `MAX_FORWARDS_MAX`. -/
def MAX_FORWARDS_MAX : Nat := 255

/-- max_forwards.rs 17-23 `MaxForwardsError`. -/
inductive MaxForwardsError | exhausted | invalid
  deriving DecidableEq, Repr

/-- max_forwards.rs 66-107 `decrement_max_forwards`: the value returned and the headers afterwards. -/
def decrementMaxForwards (hs : Headers) : Except MaxForwardsError (Nat × Headers) :=
  match hs.get "Max-Forwards".toList with
  | some value =>
    let trimmed := trim value
    if trimmed.isEmpty || !trimmed.all isDigit then .error .invalid
    else
      match parseDec 65535 trimmed with
      | none => .error .invalid
      | some current =>
        if current > MAX_FORWARDS_MAX then .error .invalid
        else if current = 0 then .error .exhausted
        else
          match hs.setOrPush "Max-Forwards".toList (showNat (current - 1)) with
          | .error _ => .error .invalid
          | .ok hs => .ok (current - 1, hs)
  | none =>
    match hs.push "Max-Forwards".toList "69".toList with
    | .error _ => .error .invalid
    | .ok hs => .ok (69, hs)

/-- max_forwards.rs 150-156: characters of a branch. -/
def isBranchChar (c : Char) : Bool :=
  isAlnum c || c ∈ ['-', '.', '!', '%', '*', '_', '+', '`', '\'', '~']

/-- max_forwards.rs 128-158 `is_valid_branch` (the limits count bytes; the minimum is 8, the maximum 256).
The check for control characters (144-146) is implied by the check of the characters. -/
def isValidBranch (b : Str) : Bool :=
  !(utf8Len b < 8) && !(utf8Len b > 256) && "z9hG4bK".toList.isPrefixOf b && !b.any isAsciiControl
    && b.all isBranchChar

end Siphon
