import Verif.Fsm.Model
/-!
# Vocabulary for the properties of the transaction state machines

Nothing here mentions how a machine works: only the events fed to it and the
actions it emits.
-/

namespace Siphon.Fsm

/-! ## Observations on client INVITE actions -/

/-- Responses handed to the transaction user. -/
def CIAction.delivered : List CIAction → List Resp
  | [] => []
  | .deliver r :: as => r :: CIAction.delivered as
  | _ :: as => CIAction.delivered as

/-- ACKs generated, with the kind recorded for the transaction user. -/
def CIAction.acks : List CIAction → List (Resp × Bool)
  | [] => []
  | .generateAck r k :: as => (r, k) :: CIAction.acks as
  | _ :: as => CIAction.acks as

/-- Bytes put on the wire. -/
def CIAction.sent : List CIAction → List Bytes
  | [] => []
  | .transmit b :: as => b :: CIAction.sent as
  | _ :: as => CIAction.sent as

/-- Durations with which timer `t` is armed. -/
def CIAction.armedWith (t : Timer) : List CIAction → List Nat
  | [] => []
  | .schedule t' d :: as => if t' = t then d :: CIAction.armedWith t as else CIAction.armedWith t as
  | _ :: as => CIAction.armedWith t as

/-- The manager classifies responses by status code (manager.rs 1603-1627): provisional
events carry codes below 200, final events codes from 200. -/
def CIEvent.WellFormed : CIEvent → Prop
  | .provisional r => r.code < 200
  | .final r => 200 ≤ r.code
  | _ => True

/-- The request most recently submitted by the user in a history. -/
def CIEvent.lastSubmitted : List CIEvent → Option Req
  | [] => none
  | e :: es => match CIEvent.lastSubmitted es, e with
    | some r, _ => some r
    | none, .sendInvite r => some r
    | none, _ => none

/-- Events after which the user has heard about the fate of the request. -/
def CIEvent.settles : CIEvent → Bool
  | .provisional _ => true
  | .final _ => true
  | .timer .B => true
  | .transportError => true
  | _ => false

/-- RFC 3261 order of client INVITE states. -/
def CIState.rank : CIState → Nat
  | .calling => 0 | .proceeding => 1 | .completed => 2 | .confirmed => 3 | .terminated => 4

/-! ## Observations on client non-INVITE actions -/

def CNAction.delivered : List CNAction → List Resp
  | [] => []
  | .deliver r :: as => r :: CNAction.delivered as
  | _ :: as => CNAction.delivered as

def CNAction.sent : List CNAction → List Bytes
  | [] => []
  | .transmit b :: as => b :: CNAction.sent as
  | _ :: as => CNAction.sent as

def CNAction.armedWith (t : Timer) : List CNAction → List Nat
  | [] => []
  | .schedule t' d :: as => if t' = t then d :: CNAction.armedWith t as else CNAction.armedWith t as
  | _ :: as => CNAction.armedWith t as

def CNEvent.WellFormed : CNEvent → Prop
  | .provisional r => r.code < 200
  | .final r => 200 ≤ r.code
  | _ => True

def CNEvent.lastSubmitted : List CNEvent → Option Req
  | [] => none
  | e :: es => match CNEvent.lastSubmitted es, e with
    | some r, _ => some r
    | none, .sendRequest r => some r
    | none, _ => none

def CNState.rank : CNState → Nat
  | .trying => 0 | .proceeding => 1 | .completed => 2 | .terminated => 3

/-! ## Observations on server actions -/

def SAction.sent : List SAction → List Bytes
  | [] => []
  | .transmit b :: as => b :: SAction.sent as
  | _ :: as => SAction.sent as

def SAction.armedWith (t : Timer) : List SAction → List Nat
  | [] => []
  | .schedule t' d :: as => if t' = t then d :: SAction.armedWith t as else SAction.armedWith t as
  | _ :: as => SAction.armedWith t as

def SNState.rank : SNState → Nat
  | .trying => 0 | .proceeding => 1 | .completed => 2 | .terminated => 3

def SIState.rank : SIState → Nat
  | .proceeding => 0 | .completed => 1 | .confirmed => 2 | .terminated => 3

/-! ## Timed histories

An event happens at a time.  `armed` maps each timer to its deadline; scheduling
(re-)arms a timer, cancelling or firing disarms it (manager.rs 1041-1081 and
1439-1518, where scheduling first cancels the previous instance). -/

inductive TimerEff | schedule (t : Timer) (d : Nat) | cancel (t : Timer) | none

def CIAction.timerEff : CIAction → TimerEff
  | .schedule t d => .schedule t d
  | .cancel t => .cancel t
  | _ => .none

def CNAction.timerEff : CNAction → TimerEff
  | .schedule t d => .schedule t d
  | .cancel t => .cancel t
  | _ => .none

def SAction.timerEff : SAction → TimerEff
  | .schedule t d => .schedule t d
  | .cancel t => .cancel t
  | _ => .none

def CIEvent.fired : CIEvent → Option Timer | .timer t => some t | _ => none
def CNEvent.fired : CNEvent → Option Timer | .timer t => some t | _ => none
def SNEvent.fired : SNEvent → Option Timer | .timer t => some t | _ => none
def SIEvent.fired : SIEvent → Option Timer | .timer t => some t | _ => none

abbrev Armed := Timer → Option Nat

def Armed.set (m : Armed) (t : Timer) (v : Option Nat) : Armed :=
  fun t' => if t' = t then v else m t'

def TimerEff.apply (now : Nat) (m : Armed) : TimerEff → Armed
  | .schedule t d => m.set t (some (now + d))
  | .cancel t => m.set t Option.none
  | .none => m

/-- One event at time `now`. -/
def timedStep {S E A : Type} (step : S → E → S × List A) (eff : A → TimerEff)
    (fired : E → Option Timer) (now : Nat) (c : S × Armed) (e : E) : S × Armed :=
  let m := match fired e with | some t => c.2.set t none | none => c.2
  let r := step c.1 e
  (r.1, (r.2.map eff).foldl (TimerEff.apply now) m)

/-- No armed timer is overdue at time `now`. -/
def Armed.onTime (m : Armed) (now : Nat) : Prop := ∀ t d, m t = some d → now ≤ d

/-- A timed history: times never decrease and no event is processed while an armed
timer is overdue (timers fire on time). -/
def Timely {S E A : Type} (step : S → E → S × List A) (eff : A → TimerEff)
    (fired : E → Option Timer) : S × Armed → Nat → List (Nat × E) → Prop
  | _, _, [] => True
  | c, now, (t, e) :: h =>
    now ≤ t ∧ c.2.onTime t ∧ Timely step eff fired (timedStep step eff fired t c e) t h

/-- State and armed timers after a timed history. -/
def timedRun {S E A : Type} (step : S → E → S × List A) (eff : A → TimerEff)
    (fired : E → Option Timer) : S × Armed → List (Nat × E) → S × Armed
  | c, [] => c
  | c, (t, e) :: h => timedRun step eff fired (timedStep step eff fired t c e) h

end Siphon.Fsm

namespace Siphon.Fsm

/-- The final response most recently submitted by the user in a history. -/
def SIEvent.lastFinal : List SIEvent → Option Resp
  | [] => none
  | e :: es => match SIEvent.lastFinal es, e with
    | some r, _ => some r
    | none, .sendFinal r => some r
    | none, _ => none

/-- The history contains no submission of a final response. -/
def SIEvent.noFinal (es : List SIEvent) : Prop := ∀ e ∈ es, ∀ r, e ≠ .sendFinal r

end Siphon.Fsm
