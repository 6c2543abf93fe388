import Verif.Base.Text
import Verif.Base.Num
/-!
# Session-Expires and Min-SE

Model of `crates/sip-core/src/session_timer.rs` (non-test part).  `to_lowercase` there is the Unicode one; it
yields `uac` or `uas` exactly where the ASCII one does (no other character has `u`, `a`, `c` or `s` as its
lower case), so `lower` is used.
-/
namespace Siphon

/-- `u32::MAX` -/
def MAX_U32 : Nat := 4294967295

/-- session_timer.rs 649-654 `RefresherRole`. -/
inductive Role | uac | uas
  deriving DecidableEq, Repr

/-- session_timer.rs 667-672 `RefresherRole::as_str`. -/
def Role.asStr : Role → Str
  | .uac => "uac".toList
  | .uas => "uas".toList

/-- session_timer.rs 696-702 `RefresherRole::parse`. -/
def Role.parse (s : Str) : Option Role :=
  if lower (trim s) = "uac".toList then some .uac
  else if lower (trim s) = "uas".toList then some .uas
  else none

/-- session_timer.rs 179-184 `SessionExpires`. -/
structure SessionExpires where
  delta : Nat
  refresher : Option Role
  deriving DecidableEq, Repr

/-- session_timer.rs 366-368 and 586-588. -/
def SE_MIN : Nat := 90
/-- session_timer.rs 88. -/
def SE_MAX : Nat := 86400
/-- session_timer.rs 93. -/
def MIN_SE_MAX : Nat := 7200

/-- session_timer.rs 214-233 `SessionExpires::new`; `none` is `Err(_)`. -/
def SessionExpires.new (d : Nat) : Option SessionExpires :=
  if d < SE_MIN then none else if d > SE_MAX then none else some { delta := d, refresher := none }

/-- session_timer.rs 279-282 `with_refresher`. -/
def SessionExpires.withRefresher (s : SessionExpires) (r : Role) : SessionExpires := { s with refresher := some r }

/-- session_timer.rs 344-349: the parameters; the last `refresher=` decides. -/
def refresherOf : List Str → Option Role → Option Role
  | [], acc => acc
  | p :: ps, acc =>
    if "refresher=".toList.isPrefixOf (trim p) then
      refresherOf ps (Role.parse (trim ((trim p).drop 10)))
    else refresherOf ps acc

/-- session_timer.rs 320-355 `SessionExpires::parse`. -/
def SessionExpires.parse (input : Str) : Option SessionExpires :=
  if input.any isControl then none
  else if (trim input).isEmpty then none
  else
    match splitChar ';' (trim input) with
    | [] => none
    | p :: ps =>
      match parseDec MAX_U32 (trim p) with
      | none => none
      | some d =>
        if d < SE_MIN || d > SE_MAX then none
        else some { delta := d, refresher := refresherOf ps none }

/-- session_timer.rs 414-422 `Display`. -/
def SessionExpires.show (s : SessionExpires) : Str :=
  showNat s.delta ++
    match s.refresher with
    | none => []
    | some r => ";refresher=".toList ++ r.asStr

/-- session_timer.rs 495-511 `MinSessionExpires::new`. -/
def minSeNew (d : Nat) : Option Nat :=
  if d < SE_MIN then none else if d > MIN_SE_MAX then none else some d

/-- session_timer.rs 556-575 `MinSessionExpires::parse`. -/
def minSeParse (input : Str) : Option Nat :=
  if input.any isControl then none
  else if (trim input).isEmpty then none
  else
    match parseDec MAX_U32 (trim input) with
    | none => none
    | some d => if d < SE_MIN || d > MIN_SE_MAX then none else some d

end Siphon
