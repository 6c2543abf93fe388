import Verif.Base.Text

/-!
# Stream framing (sip-transport)

Model of how a TCP/TLS session cuts its byte stream into SIP messages.  Bytes are `UInt8`,
byte strings are `List UInt8`.
-/

namespace Siphon.Transport

abbrev Bytes := List UInt8

abbrev CR : UInt8 := 13
abbrev LF : UInt8 := 10
abbrev COLON : UInt8 := 58

/-- `MAX_HEADER_SIZE`, `crates/sip-transport/src/lib.rs:75`. -/
def maxHeader : Nat := 64 * 1024

/-- `MAX_BODY_SIZE`, `crates/sip-transport/src/lib.rs:81`. -/
def maxBody : Nat := 10 * 1024 * 1024

/-- `MAX_BUFFER_SIZE`, `crates/sip-transport/src/lib.rs:85`. -/
def maxBuffer : Nat := 16 * 1024 * 1024

/-- The `Err` results of `drain_sip_frames` / `parse_content_length` / `parse_ascii_usize`
(`crates/sip-transport/src/lib.rs:1892-2053`), one constructor per `anyhow!`. -/
inductive FrameErr
  | unterminated   -- no blank line within MAX_HEADER_SIZE bytes
  | headerTooLong
  | bodyTooLong
  | missingLength
  | conflicting
  | emptyValue
  | nonDigit
  | overflow
deriving DecidableEq, Repr

/-- `u8::is_ascii_whitespace`: space, TAB, LF, FF, CR. -/
def isWsB (b : UInt8) : Bool := b == 32 || b == 9 || b == 10 || b == 12 || b == 13

/-- `trim_ascii_whitespace`, `crates/sip-transport/src/lib.rs:2015-2025`. -/
def trimB (s : Bytes) : Bytes := ((s.dropWhile isWsB).reverse.dropWhile isWsB).reverse

/-- `u8::to_ascii_lowercase`. -/
def lowerB (b : UInt8) : UInt8 := if 65 ≤ b && b ≤ 90 then b + 32 else b

/-- `ascii_eq_ignore_case`, `crates/sip-transport/src/lib.rs:2027-2034`. -/
def eqNoCaseB (a b : Bytes) : Bool :=
  a.length == b.length && (a.zip b).all fun p => lowerB p.1 == lowerB p.2

/-- `u8::is_ascii_digit`. -/
def isDigitB (b : UInt8) : Bool := 48 ≤ b && b ≤ 57

/-- The loop of `parse_ascii_usize` with its accumulator,
`crates/sip-transport/src/lib.rs:2040-2051` (64-bit `usize`). -/
def parseDigits (acc : Nat) : Bytes → Except FrameErr Nat
  | [] => .ok acc
  | b :: bs =>
    if !isDigitB b then .error .nonDigit
    else if acc * 10 ≥ 2 ^ 64 then .error .overflow
    else if acc * 10 + (b - 48).toNat ≥ 2 ^ 64 then .error .overflow
    else parseDigits (acc * 10 + (b - 48).toNat) bs

/-- `parse_ascii_usize`, `crates/sip-transport/src/lib.rs:2036-2053`. -/
def parseUsize (v : Bytes) : Except FrameErr Nat :=
  if v = [] then .error .emptyValue else parseDigits 0 v

/-- `slice::split(|b| *b == sep)`. -/
def splitB (sep : UInt8) : Bytes → List Bytes
  | [] => [[]]
  | b :: bs =>
    if b = sep then [] :: splitB sep bs
    else match splitB sep bs with
      | [] => [[b]]
      | l :: ls => (b :: l) :: ls

/-- Removal of one trailing CR, `crates/sip-transport/src/lib.rs:1987-1991`. -/
def stripCr (l : Bytes) : Bytes := if l.getLast? = some CR then l.dropLast else l

/-- The part of a line before its first colon and the part after it (`memchr`),
`crates/sip-transport/src/lib.rs:1992-1999`. -/
def splitColon : Bytes → Option (Bytes × Bytes)
  | [] => none
  | b :: bs => if b = COLON then some ([], bs) else (splitColon bs).map fun p => (b :: p.1, p.2)

/-- `b"content-length"`. -/
def contentLengthName : Bytes := [99, 111, 110, 116, 101, 110, 116, 45, 108, 101, 110, 103, 116, 104]

/-- `b"l"`. -/
def compactName : Bytes := [108]

/-- The loop of `parse_content_length` over the remaining lines,
`crates/sip-transport/src/lib.rs:1984-2013`. -/
def lengthLoop (found : Option Nat) : List Bytes → Except FrameErr (Option Nat)
  | [] => .ok found
  | line :: rest =>
    match splitColon (stripCr line) with
    | none => lengthLoop found rest
    | some (n, v) =>
      if !eqNoCaseB (trimB n) contentLengthName && !eqNoCaseB (trimB n) compactName then
        lengthLoop found rest
      else
        match parseUsize (trimB v) with
        | .error e => .error e
        | .ok k =>
          match found with
          | some old => if old ≠ k then .error .conflicting else lengthLoop (some old) rest
          | none => lengthLoop (some k) rest

/-- `parse_content_length`, `crates/sip-transport/src/lib.rs:1984-2013`. -/
def parseContentLength (head : Bytes) : Except FrameErr (Option Nat) :=
  lengthLoop none (splitB LF head)

/-- `consume_leading_crlf`, `crates/sip-transport/src/lib.rs:1966-1982`. -/
def skipCrlf : Bytes → Bytes
  | [] => []
  | [b] => if b = LF then [] else if b = CR then [] else [b]
  | b :: c :: bs =>
    if b = CR ∧ c = LF then skipCrlf bs
    else if b = LF then skipCrlf (c :: bs)
    else if b = CR then skipCrlf (c :: bs)
    else b :: c :: bs

/-- `memmem::find(buf, b"\r\n\r\n")`, `crates/sip-transport/src/lib.rs:1902`. -/
def findBlank : Bytes → Option Nat
  | [] => none
  | b :: bs =>
    if (b :: bs).take 4 = [CR, LF, CR, LF] then some 0 else (findBlank bs).map (· + 1)

/-- What one iteration of the loop in `drain_sip_frames` does. -/
inductive Cut
  | wait (rest : Bytes)
  | frame (f rest : Bytes)
  | fail (e : FrameErr)
deriving DecidableEq

/-- One iteration of the loop of `drain_sip_frames`,
`crates/sip-transport/src/lib.rs:1894-1960`. -/
def cut (buf : Bytes) : Cut :=
  let b := skipCrlf buf
  if b = [] then .wait []
  else
    match findBlank b with
    | none => if b.length > maxHeader then .fail .unterminated else .wait b
    | some p =>
      if p > maxHeader then .fail .headerTooLong
      else
        match parseContentLength (b.take p) with
        | .error e => .fail e
        | .ok none => .fail .missingLength
        | .ok (some n) =>
          if n > maxBody then .fail .bodyTooLong
          else if b.length < p + 4 + n then .wait b
          else .frame (b.take (p + 4 + n)) (b.drop (p + 4 + n))

/-- The loop of `drain_sip_frames` run for at most `fuel` iterations.  Every iteration that
continues removes at least four bytes, so `drain` below never runs out
(`drain_eq` in `LemmasFraming`). -/
def drainFuel : Nat → Bytes → Except FrameErr (List Bytes × Bytes)
  | 0, buf => .ok ([], buf)
  | n + 1, buf =>
    match cut buf with
    | .wait r => .ok ([], r)
    | .fail e => .error e
    | .frame f r =>
      match drainFuel n r with
      | .error e => .error e
      | .ok (fs, r') => .ok (f :: fs, r')

/-- `drain_sip_frames`, `crates/sip-transport/src/lib.rs:1892-1962`: the frames found and the
buffer left.  On `Err` the frames found earlier in the same call are dropped with the vector
holding them, exactly as here. -/
def drain (buf : Bytes) : Except FrameErr (List Bytes × Bytes) := drainFuel (buf.length + 1) buf

/-- Why a session ended. -/
inductive Closed
  | eof
  | overflow
  | framing (e : FrameErr)
deriving DecidableEq

/-- The read side of a stream session: its buffer, the frames handed on so far, and the reason
it closed.  Writer, timers, HEP capture and the per-IP frame limiter (which may drop frames,
see `Verif.RateLimit`) are left out. -/
structure Session where
  buf : Bytes := []
  out : List Bytes := []
  closed : Option Closed := none
deriving DecidableEq

/-- One pass of the read loop with the bytes one `read_buf` call returned; the empty read is
end of file.  `crates/sip-transport/src/lib.rs:1780-1873` (the TLS loop at 1566-1660 is the
same). -/
def Session.read (s : Session) (chunk : Bytes) : Session :=
  match s.closed with
  | some _ => s
  | none =>
    if s.buf.length ≥ maxBuffer then { s with closed := some .overflow }
    else if chunk = [] then { s with closed := some .eof }
    else
      match drain (s.buf ++ chunk) with
      | .error e => { s with closed := some (.framing e) }
      | .ok (fs, r) => { s with buf := r, out := s.out ++ fs }

/-- A whole session: the reads in order. -/
def session (chunks : List Bytes) : Session := chunks.foldl Session.read {}

end Siphon.Transport
