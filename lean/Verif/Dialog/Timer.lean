import Verif.Dialog.Model
/-!
# Session timers: negotiation

Model of the negotiation functions of `crates/sip-dialog/src/session_timer_manager.rs` (275-400), of the session timer
part of `UserAgentServer::accept_invite_with_session_timer` (`crates/sip-uas/src/lib.rs` 707-767) and of the use siphond
makes of the result (`bins/siphond/src/handlers/invite.rs` 1503-1511).  Durations are whole seconds.
-/
namespace Siphon.Dlg

/-- session_timer_manager.rs 275-286 `validate_session_expires`. -/
def validateSessionExpires (se : Nat) (minSe : Option Nat) : Except Nat Nat :=
  let m := match minSe with
    | none => 90
    | some m => m
  if se < m then .error m else .ok se

/-- session_timer_manager.rs 337-370 `negotiate_session_expires`. -/
def negotiate (requested localMin : Nat) (remoteMin pref : Option Nat) : Except Nat Nat :=
  let absMin := match remoteMin with
    | none => localMin
    | some r => Nat.max localMin r
  if requested < absMin then .error absMin
  else
    match pref with
    | none => .ok requested
    | some p => if Nat.max p absMin < requested then .ok (Nat.max p absMin) else .ok requested

/-- session_timer_manager.rs 389-397 `determine_refresher_role`. -/
def determineRole (param : Option Str) (isUac : Bool) : Bool :=
  match param with
  | none => isUac
  | some p =>
    if p = "uac".toList then isUac
    else if p = "uas".toList then !isUac
    else if p = "UAC".toList then isUac
    else if p = "UAS".toList then !isUac
    else isUac

/-- sip-uas lib.rs 162-166 `SessionTimerPolicy`. -/
structure TimerPolicy where
  minSe : Nat
  preferred : Option Nat
  force : Option Role

/-- What `accept_invite_with_session_timer` decides about the timer. -/
inductive TimerOutcome
  /-- 422 with this Min-SE -/
  | tooSmall (minSe : Nat)
  | noTimer
  /-- 200 with this Session-Expires value, and the interval and the refresher handed to the caller -/
  | timer (value : Str) (se : Nat) (refresher : Role)
  deriving DecidableEq, Repr

/-- sip-uas lib.rs 707-767: the negotiation and the headers added to the 200.  `parse_session_expires` and
`parse_min_se` are `SessionExpires::parse` and `MinSessionExpires::parse`. -/
def acceptTimer (pol : TimerPolicy) (hs : Headers) : TimerOutcome :=
  match (hs.get "Session-Expires".toList).bind SessionExpires.parse with
  | none => .noTimer
  | some req =>
    match negotiate req.delta pol.minSe ((hs.get "Min-SE".toList).bind minSeParse) pol.preferred with
    | .error m => .tooSmall m
    | .ok se =>
      let r := match pol.force with
        | some r => r
        | none =>
          match req.refresher with
          | some r => r
          | none => .uac
      .timer (showNat se ++ ";refresher=".toList ++ r.asStr) se r

/-- siphond invite.rs 1190-1191 and 1505-1506: whether siphond, which is the UAS here, takes itself for the refresher. -/
def siphondRefreshes (refresher : Option Role) : Bool := decide (refresher = some .uac)

end Siphon.Dlg
