import Verif.Base.Percent
/-!
# sip-hep: copies of messages for a capture server

Models `/repo/crates/sip-hep/src/headers.rs` and `emitter.rs`, and the call in `/repo/crates/sip-transport/src/pool.rs`.
Not modelled: the HEP3 encoding and the queue of the sink (the crate `hep-rs`, not in the repository), the time stamp.
-/
namespace Siphon.Hep

/-- headers.rs 50-58: a byte as `eq_ignore_ascii_case` compares it. -/
def lowerByte (b : UInt8) : UInt8 := if 65 ≤ b.toNat ∧ b.toNat ≤ 90 then b + 32 else b

/-- headers.rs 50-58 `starts_with_ci`. -/
def startsWithCi (bs pre : Bytes) : Bool :=
  decide (pre.length ≤ bs.length) && ((bs.take pre.length).map lowerByte == pre.map lowerByte)

/-- `b"Call-ID:"`. -/
def longName : Bytes := utf8 "Call-ID:".toList
/-- `b"i:"`. -/
def shortName : Bytes := utf8 "i:".toList

/-- headers.rs 60-71 `match_call_id`. -/
def matchCallId (line : Bytes) : Option Bytes :=
  if startsWithCi line longName then some (line.drop longName.length)
  else if startsWithCi line shortName then some (line.drop shortName.length)
  else none

/-- headers.rs 73-90 `find_line_end`: what is before the LF (`i > from` says that it is not empty), without a CR at its end. -/
def dropCr (x : Bytes) : Bytes := if x.getLast? = some 13 then x.dropLast else x

/-- headers.rs 103-113 `trim_ascii`. -/
def trimAscii (s : Bytes) : Bytes :=
  ((s.dropWhile (fun b => b == 32 || b == 9)).reverse.dropWhile (fun b => b == 32 || b == 9 || b == 13)).reverse

/-- headers.rs 24-47 `extract_call_id`, from the byte at `start + cur.length`; `cur` are the bytes of the current line so far.
Without another LF `find_line_end` gives `None`; `skip_crlf` (92-101) stops after the LF of the line. -/
def scan (cur : Bytes) : Bytes → Option Str
  | [] => none
  | b :: t =>
    if b = 10 then
      if (dropCr cur).isEmpty then none
      else
        match matchCallId (dropCr cur) with
        | some v => utf8Decode (trimAscii v)
        | none => scan [] t
    else scan (cur ++ [b]) t

/-- headers.rs 24-47 `extract_call_id`. -/
def extractCallId (payload : Bytes) : Option Str := scan [] payload

/-- emitter.rs 69 `MAX_SIP_PAYLOAD`. -/
def MAX_SIP_PAYLOAD : Nat := 61440

/-- lib.rs 66-73 `Direction`. -/
inductive Direction
  | inbound | outbound
  deriving DecidableEq

/-- The protocols of `hep_rs::IpProto` that are used. -/
inductive IpProto
  | udp | tcp | sctp
  deriving DecidableEq

/-- `hep_rs::HepPacket` (emitter.rs 80-90), without the time stamp; `A` are the socket addresses. -/
structure Packet (A : Type) where
  captureId : Nat
  password : Option Str
  transport : IpProto
  src : A
  dst : A
  correlation : Option Str
  payload : Bytes
  deriving DecidableEq

/-- emitter.rs 27-31 `SipHepEmitter`, without the sink. -/
structure Emitter where
  captureId : Nat
  password : Option Str
  deriving DecidableEq

/-- emitter.rs 52-92 `emit_sip`: the packet given to the sink. -/
def Emitter.emit {A : Type} (e : Emitter) (proto : IpProto) (src dst : A) (payload : Bytes) (corr : Option Str) : Packet A :=
  let p := if payload.length > MAX_SIP_PAYLOAD then payload.take MAX_SIP_PAYLOAD else payload
  ⟨e.captureId, e.password, proto, src, dst, corr, p⟩

/-- emitter.rs 95-106 `set_emitter`: the global cell, and whether the handle is installed. -/
def setEmitter (cell : Option Emitter) (e : Emitter) : Option Emitter × Bool :=
  match cell with
  | none => (some e, true)
  | some x => (some x, false)

/-- pool.rs 157-172 `emit_pool_hep`. -/
def emitPool {A : Type} (cell : Option Emitter) (dir : Direction) (loc : Option A) (peer : A) (data : Bytes) : Option (Packet A) :=
  match cell, loc with
  | some e, some l =>
    let corr := extractCallId data
    match dir with
    | .outbound => some (e.emit .tcp l peer data corr)
    | .inbound => some (e.emit .tcp peer l data corr)
  | _, _ => none

/-- sip-transport lib.rs 574-589 and 634-646: the datagrams of UDP; the local address is asked for (`local_addr().ok()`) when one is sent. -/
def emitUdp {A : Type} (cell : Option Emitter) (dir : Direction) (loc : Option A) (peer : A) (data : Bytes) : Option (Packet A) :=
  match cell, loc with
  | some e, some l =>
    match dir with
    | .outbound => some (e.emit .udp l peer data (extractCallId data))
    | .inbound => some (e.emit .udp peer l data (extractCallId data))
  | _, _ => none

end Siphon.Hep
