/-!
# The four RFC 3261 transaction state machines

Model of `crates/sip-transaction/src/timers.rs` and
`crates/sip-transaction/src/fsm.rs`.

Simplifications that hold for the whole file:
* `Duration` is a natural number of milliseconds (no saturation at `Duration::MAX`).
* The `transport` field of `Transmit` actions (always `TransportKind::Udp`, ignored by
  the manager) is dropped.
* A request is the byte string it serialises to: the machines only ever store and
  re-send `serialize_request(&request)`.
* A response is its status code, the outcome of `response_requires_prack`
  (fsm.rs 410-427, modelled in `Verif/Fsm/Prack.lean`) and the bytes it serialises to.
-/

namespace Siphon.Fsm

abbrev Bytes := List UInt8

/-- lib.rs 154-169 `TransactionTimer`. -/
inductive Timer
  | T1 | T2 | T4 | A | B | C | D | E | F | G | H | I | J | K
  deriving DecidableEq, Repr

/-- timers.rs 77-84 `Transport` (WS/WSS/SCTP are mapped to one of these by the manager). -/
inductive Transport
  | udp | tcp | tls
  deriving DecidableEq, Repr

/-- timers.rs 88-90 `Transport::is_reliable`: TCP and TLS. -/
def Transport.isReliable : Transport → Bool
  | .udp => false
  | .tcp => true
  | .tls => true

/-- timers.rs 103-130 `TransportAwareTimers` (transport + `TimerDefaults`), in milliseconds. -/
structure Timers where
  transport : Transport
  t1 : Nat
  t2 : Nat
  t4 : Nat
  deriving DecidableEq, Repr

/-- timers.rs 168-257 `TransportAwareTimers::duration`. -/
def Timers.duration (tm : Timers) : Timer → Nat
  | .T1 => tm.t1
  | .T2 => tm.t2
  | .T4 => tm.t4
  | .A => if tm.transport.isReliable then 0 else tm.t1
  | .B => tm.t1 * 64
  | .D => if tm.transport.isReliable then 0 else 32000
  | .E => if tm.transport.isReliable then 0 else tm.t1
  | .F => tm.t1 * 64
  | .K => if tm.transport.isReliable then 0 else tm.t4
  | .G => if tm.transport.isReliable then 0 else tm.t1
  | .H => tm.t1 * 64
  | .I => if tm.transport.isReliable then 0 else tm.t4
  | .J => if tm.transport.isReliable then 0 else tm.t1 * 64
  | .C => 180000

/-- A request, as the machines see it (see the header comment). -/
structure Req where
  bytes : Bytes
  deriving DecidableEq, Repr

/-- A response, as the machines see it (see the header comment). -/
structure Resp where
  code : Nat
  requiresPrack : Bool
  bytes : Bytes
  deriving DecidableEq, Repr

/-- `(200..=299).contains(&code)`, fsm.rs 565, 1077. -/
def Resp.is2xx (r : Resp) : Bool := decide (200 ≤ r.code) && decide (r.code ≤ 299)

/-! ## Client INVITE (fsm.rs 461-662) -/

/-- lib.rs 173-179 `ClientInviteState` (nothing ever assigns `Confirmed`). -/
inductive CIState | calling | proceeding | completed | confirmed | terminated
  deriving DecidableEq, Repr

/-- fsm.rs 322-328 `ClientInviteEvent`. -/
inductive CIEvent
  | sendInvite (r : Req)
  | provisional (r : Resp)
  | final (r : Resp)
  | timer (t : Timer)
  | transportError
  deriving DecidableEq, Repr

/-- fsm.rs 332-351 `ClientInviteAction`. -/
inductive CIAction
  | transmit (b : Bytes)
  | deliver (r : Resp)
  | expectPrack (r : Resp)
  | generateAck (r : Resp) (is2xx : Bool)
  | schedule (t : Timer) (d : Nat)
  | cancel (t : Timer)
  | terminate (reason : String)
  deriving DecidableEq, Repr

/-- fsm.rs 461-468 `ClientInviteFsm`. -/
structure CI where
  state : CIState
  timers : Timers
  aInterval : Nat
  lastInvite : Option Bytes
  deriving DecidableEq, Repr

/-- fsm.rs 477-486 `ClientInviteFsm::new`. -/
def CI.new (tm : Timers) : CI := ⟨.calling, tm, tm.duration .A, none⟩

/-- fsm.rs 519-545 `handle_send_invite`. -/
def CI.handleSendInvite (s : CI) (r : Req) : CI × List CIAction :=
  ({ s with lastInvite := some r.bytes, state := .calling },
   [.transmit r.bytes]
     ++ (if s.timers.duration .A ≠ 0 then [.schedule .A (s.timers.duration .A)] else [])
     ++ [.schedule .B (s.timers.duration .B)])

/-- fsm.rs 547-557 `handle_provisional`. -/
def CI.handleProvisional (s : CI) (r : Resp) : CI × List CIAction :=
  ({ s with state := .proceeding },
   [.cancel .A, .deliver r] ++ (if r.requiresPrack then [.expectPrack r] else []))

/-- fsm.rs 572-583 `handle_final_2xx`. -/
def CI.handleFinal2xx (s : CI) (r : Resp) : CI × List CIAction :=
  ({ s with state := .terminated },
   [.cancel .A, .cancel .B, .deliver r, .generateAck r true])

/-- fsm.rs 585-607 `handle_final_non_2xx`. -/
def CI.handleFinalNon2xx (s : CI) (cur : CIState) (r : Resp) : CI × List CIAction :=
  ({ s with state := .completed },
   [.cancel .A, .cancel .B, .deliver r, .generateAck r false]
     ++ (if cur = .completed then [] else [.schedule .D (s.timers.duration .D)]))

/-- fsm.rs 559-570 `handle_final`. -/
def CI.handleFinal (s : CI) (cur : CIState) (r : Resp) : CI × List CIAction :=
  if r.is2xx then s.handleFinal2xx r else s.handleFinalNon2xx cur r

/-- fsm.rs 609-636 `handle_timer_a`. -/
def CI.handleTimerA (s : CI) : CI × List CIAction :=
  if s.state ≠ .calling then (s, [])
  else if s.timers.duration .A = 0 then (s, [])
  else
    let s' := { s with aInterval := min (s.aInterval * 2) (s.timers.duration .T2) }
    match s.lastInvite with
    | some b => (s', [.transmit b, .schedule .A s'.aInterval])
    | none => (s', [])

/-- fsm.rs 638-649 `handle_timer_b`. -/
def CI.handleTimerB (s : CI) : CI × List CIAction :=
  if s.state = .terminated then (s, [])
  else ({ s with state := .terminated }, [.cancel .A, .terminate "Timer B expired"])

/-- fsm.rs 651-654 `handle_timer_d`. -/
def CI.handleTimerD (s : CI) : CI × List CIAction :=
  ({ s with state := .terminated }, [.cancel .D])

/-- fsm.rs 656-661 `handle_transport_error`. -/
def CI.handleTransportError (s : CI) : CI × List CIAction :=
  ({ s with state := .terminated }, [.terminate "transport error"])

/-- fsm.rs 488-517 `ClientInviteFsm::on_event`. -/
def CI.step (s : CI) (e : CIEvent) : CI × List CIAction :=
  match s.state, e with
  | .calling, .sendInvite r => s.handleSendInvite r
  | .calling, .provisional r => s.handleProvisional r
  | .proceeding, .provisional r => s.handleProvisional r
  | .calling, .final r => s.handleFinal .calling r
  | .proceeding, .final r => s.handleFinal .proceeding r
  | .completed, .final r => s.handleFinal .completed r
  | .terminated, .final r => if r.is2xx then s.handleFinal2xx r else (s, [])
  | .calling, .timer .A => s.handleTimerA
  | .calling, .timer .B => s.handleTimerB
  | .proceeding, .timer .B => s.handleTimerB
  | .completed, .timer .D => s.handleTimerD
  | _, .transportError => s.handleTransportError
  | _, _ => (s, [])

/-! ## Client non-INVITE (fsm.rs 446-459, 664-823) -/

/-- lib.rs 192-197 `ClientNonInviteState`. -/
inductive CNState | trying | proceeding | completed | terminated
  deriving DecidableEq, Repr

/-- fsm.rs 294-300 `ClientNonInviteEvent`. -/
inductive CNEvent
  | sendRequest (r : Req)
  | provisional (r : Resp)
  | final (r : Resp)
  | timer (t : Timer)
  | transportError
  deriving DecidableEq, Repr

/-- fsm.rs 304-318 `ClientAction`. -/
inductive CNAction
  | transmit (b : Bytes)
  | deliver (r : Resp)
  | schedule (t : Timer) (d : Nat)
  | cancel (t : Timer)
  | terminate (reason : String)
  deriving DecidableEq, Repr

/-- fsm.rs 446-451 `ClientNonInviteFsm`. -/
structure CN where
  state : CNState
  timers : Timers
  eInterval : Nat
  lastRequest : Option Bytes
  deriving DecidableEq, Repr

/-- fsm.rs 667-675 `ClientNonInviteFsm::new`. -/
def CN.new (tm : Timers) : CN := ⟨.trying, tm, tm.duration .E, none⟩

/-- fsm.rs 711-737 `handle_initial_send`. -/
def CN.handleInitialSend (s : CN) (r : Req) : CN × List CNAction :=
  ({ s with lastRequest := some r.bytes, state := .trying },
   [.transmit r.bytes]
     ++ (if s.timers.duration .E ≠ 0 then [.schedule .E (s.timers.duration .E)] else [])
     ++ [.schedule .F (s.timers.duration .F)])

/-- fsm.rs 739-742 `handle_provisional`. -/
def CN.handleProvisional (s : CN) (r : Resp) : CN × List CNAction :=
  ({ s with state := .proceeding }, [.deliver r])

/-- fsm.rs 744-755 `handle_final`. -/
def CN.handleFinal (s : CN) (r : Resp) : CN × List CNAction :=
  ({ s with state := .completed },
   [.deliver r, .cancel .E, .cancel .F, .schedule .K (s.timers.duration .K)])

/-- fsm.rs 757-783 `handle_timer_e`. -/
def CN.handleTimerE (s : CN) : CN × List CNAction :=
  if s.state = .completed then (s, [])
  else if s.timers.duration .E = 0 then (s, [])
  else
    let s' := { s with eInterval := min (s.eInterval * 2) (s.timers.duration .T2) }
    match s.lastRequest with
    | some b => (s', [.transmit b, .schedule .E s'.eInterval])
    | none => (s', [])

/-- fsm.rs 802-810 `handle_timer_f`. -/
def CN.handleTimerF (s : CN) : CN × List CNAction :=
  ({ s with state := .terminated }, [.cancel .E, .terminate "Timer F expired"])

/-- fsm.rs 812-815 `handle_timer_k`. -/
def CN.handleTimerK (s : CN) : CN × List CNAction :=
  ({ s with state := .terminated }, [.cancel .K])

/-- fsm.rs 817-822 `handle_transport_error`. -/
def CN.handleTransportError (s : CN) : CN × List CNAction :=
  ({ s with state := .terminated }, [.terminate "transport error"])

/-- fsm.rs 677-710 `ClientNonInviteFsm::on_event`. -/
def CN.step (s : CN) (e : CNEvent) : CN × List CNAction :=
  match s.state, e with
  | .trying, .sendRequest r => s.handleInitialSend r
  | .trying, .provisional r => s.handleProvisional r
  | .proceeding, .provisional r => s.handleProvisional r
  | .trying, .final r => s.handleFinal r
  | .proceeding, .final r => s.handleFinal r
  | .trying, .timer .E => s.handleTimerE
  | .proceeding, .timer .E => s.handleTimerE
  | .trying, .timer .F => s.handleTimerF
  | .proceeding, .timer .F => s.handleTimerF
  | .completed, .timer .K => s.handleTimerK
  | _, .transportError => s.handleTransportError
  | _, _ => (s, [])

/-! ## Server non-INVITE (fsm.rs 849-967) -/

/-- lib.rs 201-206 `ServerNonInviteState`. -/
inductive SNState | trying | proceeding | completed | terminated
  deriving DecidableEq, Repr

/-- fsm.rs 355-362 `ServerNonInviteEvent`, plus `retransmit` for a call of `on_retransmit`. -/
inductive SNEvent
  | receiveRequest
  | retransmit
  | sendProvisional (r : Resp)
  | sendFinal (r : Resp)
  | ack
  | timer (t : Timer)
  | transportError
  deriving DecidableEq, Repr

/-- fsm.rs 366-379 `ServerAction` and 395-408 `ServerInviteAction`. -/
inductive SAction
  | transmit (b : Bytes)
  | schedule (t : Timer) (d : Nat)
  | cancel (t : Timer)
  | terminate (reason : String)
  deriving DecidableEq, Repr

/-- fsm.rs 849-853 `ServerNonInviteFsm`. -/
structure SN where
  state : SNState
  timers : Timers
  lastResponse : Option Bytes
  deriving DecidableEq, Repr

/-- fsm.rs 862-868 `ServerNonInviteFsm::new`. -/
def SN.new (tm : Timers) : SN := ⟨.trying, tm, none⟩

/-- fsm.rs 895-908 `on_retransmit`. -/
def SN.onRetransmit (s : SN) : List SAction :=
  match s.state with
  | .proceeding | .completed =>
    match s.lastResponse with
    | some b => [.transmit b]
    | none => []
  | _ => []

/-- fsm.rs 916-923 `handle_provisional`. -/
def SN.handleProvisional (s : SN) (r : Resp) : SN × List SAction :=
  ({ s with lastResponse := some r.bytes }, [.transmit r.bytes])

/-- fsm.rs 925-939 `handle_final`. -/
def SN.handleFinal (s : SN) (r : Resp) : SN × List SAction :=
  ({ s with state := .completed, lastResponse := some r.bytes },
   [.transmit r.bytes, .schedule .J (s.timers.duration .J)])

/-- fsm.rs 941-949 `handle_ack`. -/
def SN.handleAck (s : SN) : SN × List SAction :=
  ({ s with state := .terminated }, [.cancel .J, .terminate "ACK received"])

/-- fsm.rs 951-959 `handle_timer_j`. -/
def SN.handleTimerJ (s : SN) : SN × List SAction :=
  ({ s with state := .terminated }, [.cancel .J, .terminate "Timer J expired"])

/-- fsm.rs 961-966 `handle_transport_error`. -/
def SN.handleTransportError (s : SN) : SN × List SAction :=
  ({ s with state := .terminated }, [.terminate "transport error"])

/-- fsm.rs 871-893 `ServerNonInviteFsm::on_event` (and 895-908 for `retransmit`). -/
def SN.step (s : SN) (e : SNEvent) : SN × List SAction :=
  match s.state, e with
  | .trying, .receiveRequest => ({ s with state := .proceeding }, [])
  | .proceeding, .sendProvisional r => s.handleProvisional r
  | .trying, .sendFinal r => s.handleFinal r
  | .proceeding, .sendFinal r => s.handleFinal r
  | .completed, .ack => s.handleAck
  | .completed, .timer .J => s.handleTimerJ
  | _, .transportError => s.handleTransportError
  | _, .retransmit => (s, s.onRetransmit)
  | _, _ => (s, [])

/-! ## Server INVITE (fsm.rs 984-1187) -/

/-- lib.rs 183-188 `ServerInviteState`. -/
inductive SIState | proceeding | completed | confirmed | terminated
  deriving DecidableEq, Repr

/-- fsm.rs 383-391 `ServerInviteEvent`, plus `retransmit` for a call of `on_retransmit`. -/
inductive SIEvent
  | receiveInvite
  | retransmit
  | cancel
  | sendProvisional (r : Resp)
  | sendFinal (r : Resp)
  | ack
  | timer (t : Timer)
  | transportError
  deriving DecidableEq, Repr

/-- fsm.rs 984-990 `ServerInviteFsm`. -/
structure SI where
  state : SIState
  timers : Timers
  gInterval : Nat
  lastResponse : Option Bytes
  lastFinal : Option Bytes
  deriving DecidableEq, Repr

/-- fsm.rs 1001-1010 `ServerInviteFsm::new`. -/
def SI.new (tm : Timers) : SI := ⟨.proceeding, tm, tm.duration .G, none, none⟩

/-- fsm.rs 1044-1057 `on_retransmit`. -/
def SI.onRetransmit (s : SI) : List SAction :=
  match s.state with
  | .proceeding | .completed =>
    match s.lastResponse with
    | some b => [.transmit b]
    | none => []
  | _ => []

/-- fsm.rs 1064-1071 `send_provisional`. -/
def SI.sendProvisional (s : SI) (r : Resp) : SI × List SAction :=
  ({ s with lastResponse := some r.bytes }, [.transmit r.bytes])

/-- fsm.rs 1073-1114 `send_final`. -/
def SI.sendFinal (s : SI) (r : Resp) : SI × List SAction :=
  if r.is2xx then
    ({ s with lastResponse := some r.bytes, state := .terminated },
     [.transmit r.bytes, .terminate "2xx sent"])
  else
    ({ s with lastResponse := some r.bytes, state := .completed,
              lastFinal := some r.bytes, gInterval := s.timers.duration .G },
     [.transmit r.bytes]
       ++ (if s.timers.duration .G ≠ 0 then [.schedule .G (s.timers.duration .G)] else [])
       ++ [.schedule .H (s.timers.duration .H)])

/-- fsm.rs 1116-1129 `handle_ack`. -/
def SI.handleAck (s : SI) : SI × List SAction :=
  if s.state ≠ .completed then (s, [])
  else ({ s with state := .confirmed },
        [.cancel .G, .cancel .H, .schedule .I (s.timers.duration .I)])

/-- fsm.rs 1131-1159 `handle_timer_g`. -/
def SI.handleTimerG (s : SI) : SI × List SAction :=
  if s.state ≠ .completed then (s, [])
  else if s.timers.duration .G = 0 then (s, [])
  else match s.lastFinal with
    | some b =>
      let s' := { s with gInterval := min (s.gInterval * 2) (s.timers.duration .T2) }
      (s', [.transmit b, .schedule .G s'.gInterval])
    | none => (s, [])

/-- fsm.rs 1161-1169 `handle_timer_h`. -/
def SI.handleTimerH (s : SI) : SI × List SAction :=
  ({ s with state := .terminated }, [.cancel .G, .terminate "Timer H expired"])

/-- fsm.rs 1171-1179 `handle_timer_i`. -/
def SI.handleTimerI (s : SI) : SI × List SAction :=
  ({ s with state := .terminated }, [.cancel .I, .terminate "Timer I expired"])

/-- fsm.rs 1181-1186 `handle_transport_error`. -/
def SI.handleTransportError (s : SI) : SI × List SAction :=
  ({ s with state := .terminated }, [.terminate "transport error"])

/-- fsm.rs 1013-1037 `ServerInviteFsm::on_event` (and 1044-1057 for `retransmit`). -/
def SI.step (s : SI) (e : SIEvent) : SI × List SAction :=
  match s.state, e with
  | .proceeding, .sendProvisional r => s.sendProvisional r
  | .proceeding, .sendFinal r => s.sendFinal r
  | .confirmed, .sendFinal r => s.sendFinal r
  | .completed, .sendFinal r => s.sendFinal r
  | .completed, .ack => s.handleAck
  | .completed, .timer .G => s.handleTimerG
  | .completed, .timer .H => s.handleTimerH
  | .confirmed, .timer .I => s.handleTimerI
  | _, .transportError => s.handleTransportError
  | _, .retransmit => (s, s.onRetransmit)
  | _, _ => (s, [])

/-! ## Histories -/

/-- Run a machine over a history: final state and the list of (event, actions) pairs.
(The loop around `on_event` in manager.rs, one call per event.) -/
def run {S E A : Type} (step : S → E → S × List A) : S → List E → S × List (E × List A)
  | s, [] => (s, [])
  | s, e :: es =>
    let r := step s e
    let r' := run step r.1 es
    (r'.1, (e, r.2) :: r'.2)

/-- All actions emitted by a run, in order. -/
def outputs {E A : Type} (tr : List (E × List A)) : List A := tr.flatMap (·.2)

end Siphon.Fsm
