import Verif.Dialog.Model
import Verif.Base.Num
/-!
# Reliable provisional responses

Model of `crates/sip-dialog/src/prack_validator.rs` (without its tests), of `RSeqManager`
(`crates/sip-dialog/src/lib.rs` 1740-1810), of `UserAgentServer::handle_prack`
(`crates/sip-uas/src/lib.rs` 1322-1355) and of the retransmission loop of
`bins/siphond/src/handlers/invite.rs` 39-74.  Times are in nanoseconds, the resolution of `Instant`.
-/
namespace Siphon.Dlg

/-- prack_validator.rs 18 -/
def MAX_PENDING_PRACK_PER_DIALOG : Nat := 10
/-- prack_validator.rs 19, in nanoseconds -/
def PRACK_CLEANUP_INTERVAL : Nat := 300 * 10 ^ 9
/-- prack_validator.rs 20, in nanoseconds -/
def PRACK_TIMEOUT : Nat := 300 * 10 ^ 9

/-- `char::to_uppercase`, as far as it can matter for a comparison with ASCII text: the upper case of every other
character that is not ASCII contains a character that is not ASCII, like the character itself. -/
def upperFull (c : Char) : Str :=
  if c = 'ß' then "SS".toList
  else if c = 'ı' then "I".toList
  else if c = 'ſ' then "S".toList
  else if c = 'ﬀ' then "FF".toList
  else if c = 'ﬁ' then "FI".toList
  else if c = 'ﬂ' then "FL".toList
  else if c = 'ﬃ' then "FFI".toList
  else if c = 'ﬄ' then "FFL".toList
  else if c = 'ﬅ' then "ST".toList
  else if c = 'ﬆ' then "ST".toList
  else [c.toUpper]

/-- prack_validator.rs 23-41 `parse_method`. -/
def parseMethod (s : Str) : Option Method :=
  let u := s.flatMap upperFull
  if u = "INVITE".toList then some .invite
  else if u = "ACK".toList then some .ack
  else if u = "BYE".toList then some .bye
  else if u = "CANCEL".toList then some .cancel
  else if u = "REGISTER".toList then some .register
  else if u = "OPTIONS".toList then some .options
  else if u = "INFO".toList then some .info
  else if u = "UPDATE".toList then some .update
  else if u = "MESSAGE".toList then some .message
  else if u = "PRACK".toList then some .prack
  else if u = "REFER".toList then some .refer
  else if u = "SUBSCRIBE".toList then some .subscribe
  else if u = "NOTIFY".toList then some .notify
  else if u = "PUBLISH".toList then some .publish
  else none

/-- prack_validator.rs 45-54 `RAck`. -/
structure RAck where
  rseq : Nat
  cseq : Nat
  method : Method
  deriving DecidableEq, Repr

/-- The errors of `RAck::parse` and `validate_prack`. -/
inductive PErr
  | missing | format | badRSeq | badCSeq | badMethod | noneForDialog | rseqMismatch | cseqMismatch | methodMismatch
  | duplicate
  deriving DecidableEq, Repr

/-- prack_validator.rs 61-82 `RAck::parse`. -/
def RAck.parse (v : Str) : Except PErr RAck :=
  match splitWhitespace v with
  | [a, b, m] =>
    match parseDec MAX_U32 a with
    | none => .error .badRSeq
    | some r =>
      match parseDec MAX_U32 b with
      | none => .error .badCSeq
      | some c =>
        match parseMethod m with
        | none => .error .badMethod
        | some m => .ok { rseq := r, cseq := c, method := m }
  | _ => .error .format

/-- prack_validator.rs 85-87 `RAck::format`. -/
def RAck.format (r : RAck) : Str := showNat r.rseq ++ ' ' :: showNat r.cseq ++ ' ' :: r.method.asStr

/-- prack_validator.rs 98-115 `PendingReliable`. -/
structure Pending where
  rseq : Nat
  cseq : Nat
  method : Method
  code : Nat
  pracked : Bool
  createdAt : Nat
  deriving DecidableEq, Repr

/-- prack_validator.rs 118-123 `PrackValidator`. -/
structure Validator where
  pending : Tbl Str (List Pending)
  lastCleanup : Tbl Str Nat

/-- prack_validator.rs 127-132 `new`. -/
def Validator.empty : Validator := { pending := [], lastCleanup := [] }

/-! The validator is shared between tasks; each of the following is done under one lock of the map. -/

/-- prack_validator.rs 151-154, the removal part of `cleanup_pending`. -/
def retainAtom (t : Tbl Str (List Pending)) (d : Str) (now : Nat) : Tbl Str (List Pending) :=
  t.update d (fun l => l.filter (fun p => !p.pracked && decide (now - p.createdAt ≤ PRACK_TIMEOUT)))

/-- prack_validator.rs 184-189, the insertion part of `register_reliable_provisional`. -/
def pushAtom (t : Tbl Str (List Pending)) (d : Str) (p : Pending) : Tbl Str (List Pending) :=
  let l := match t.get d with
    | none => []
    | some l => l
  let l := if MAX_PENDING_PRACK_PER_DIALOG ≤ l.length then l.drop (l.length + 1 - MAX_PENDING_PRACK_PER_DIALOG) else l
  t.insert d (l ++ [p])

/-- Sets the flag of the first entry with this RSeq. -/
def markFirst (rseq : Nat) : List Pending → List Pending
  | [] => []
  | p :: l => if p.rseq = rseq then { p with pracked := true } :: l else p :: markFirst rseq l

/-- prack_validator.rs 216-263, the part of `validate_prack` after the RAck was read. -/
def checkAtom (t : Tbl Str (List Pending)) (d : Str) (r : RAck) : Except PErr RAck × Tbl Str (List Pending) :=
  match t.get d with
  | none => (.error .noneForDialog, t)
  | some l =>
    match l.find? (fun p => decide (p.rseq = r.rseq)) with
    | none => (.error .rseqMismatch, t)
    | some p =>
      if p.cseq ≠ r.cseq then (.error .cseqMismatch, t)
      else if p.method ≠ r.method then (.error .methodMismatch, t)
      else if p.pracked then (.error .duplicate, t)
      else (.ok r, t.insert d (markFirst r.rseq l))

/-- prack_validator.rs 301-305 `remove_pracked`. -/
def removePracked (t : Tbl Str (List Pending)) (d : Str) (rseq : Nat) : Tbl Str (List Pending) :=
  t.update d (fun l => l.filter (fun p => decide (p.rseq ≠ rseq) || !p.pracked))

/-- prack_validator.rs 136-142: whether a cleanup is due. -/
def Validator.cleanupDue (s : Validator) (d : Str) (now : Nat) : Bool :=
  match s.lastCleanup.get d with
  | none => true
  | some last => decide (PRACK_CLEANUP_INTERVAL ≤ now - last)

/-- prack_validator.rs 134-155 `cleanup_pending`. -/
def Validator.cleanup (s : Validator) (d : Str) (now : Nat) : Validator :=
  if s.cleanupDue d now then
    { pending := retainAtom s.pending d now, lastCleanup := s.lastCleanup.insert d now }
  else s

/-- prack_validator.rs 160-190 `register_reliable_provisional`. -/
def Validator.register (s : Validator) (d : Str) (now rseq cseq : Nat) (m : Method) (code : Nat) : Validator :=
  let s := s.cleanup d now
  { s with pending := pushAtom s.pending d (Pending.mk rseq cseq m code false now) }

/-- prack_validator.rs 203-264 `validate_prack`. -/
def Validator.prack (s : Validator) (d : Str) (now : Nat) (hs : Headers) : Except PErr RAck × Validator :=
  let s := s.cleanup d now
  match hs.get "RAck".toList with
  | none => (.error .missing, s)
  | some v =>
    match RAck.parse v with
    | .error e => (.error e, s)
    | .ok r => ((checkAtom s.pending d r).1, { s with pending := (checkAtom s.pending d r).2 })

/-- prack_validator.rs 267-277 `is_pracked`. -/
def Validator.isPracked (s : Validator) (d : Str) (rseq : Nat) : Bool :=
  match s.pending.get d with
  | none => false
  | some l =>
    match l.find? (fun p => decide (p.rseq = rseq)) with
    | none => false
    | some p => p.pracked

/-- prack_validator.rs 280-291 `get_pending`. -/
def Validator.getPending (s : Validator) (d : Str) (now : Nat) : List (Nat × Nat) × Validator :=
  let s := s.cleanup d now
  (match s.pending.get d with
    | none => []
    | some l => (l.filter (fun p => !p.pracked)).map (fun p => (p.rseq, p.code)), s)

/-- The calls that change the validator. -/
inductive POp
  | register (d : Str) (now rseq cseq : Nat) (m : Method) (code : Nat)
  | prack (d : Str) (now : Nat) (hs : Headers)
  | getPending (d : Str) (now : Nat)
  /-- prack_validator.rs 294-297 `remove_dialog` -/
  | removeDialog (d : Str)
  | removePracked (d : Str) (rseq : Nat)

def Validator.step (s : Validator) : POp → Validator
  | .register d now rseq cseq m code => s.register d now rseq cseq m code
  | .prack d now hs => (s.prack d now hs).2
  | .getPending d now => (s.getPending d now).2
  | .removeDialog d => { pending := s.pending.remove d, lastCleanup := s.lastCleanup.remove d }
  | .removePracked d rseq => { s with pending := removePracked s.pending d rseq }

def Validator.run (s : Validator) (ops : List POp) : Validator := ops.foldl Validator.step s

/-- prack_validator.rs 315-320 `extract_rseq`. -/
def extractRSeq (hs : Headers) : Option Nat :=
  match hs.get "RSeq".toList with
  | none => none
  | some v => parseDec MAX_U32 v

/-- prack_validator.rs 339-344 `is_reliable_provisional`. -/
def isReliableProvisional (code : Nat) (hs : Headers) : Bool :=
  decide (100 ≤ code) && decide (code < 200) && decide (code ≠ 100) && (hs.get "RSeq".toList).isSome

/-! ## RSeq numbers -/

/-- lib.rs 1744-1749 `random_initial_rseq`, from the 32 random bits `n`. -/
def initialRSeq (n : Nat) : Nat := Nat.max (n % 2 ^ 31) 1

/-- lib.rs 1782-1788 `RSeqManager::next_rseq`; `n` are the random bits, used for the first number. -/
def nextRSeq (t : Tbl DialogId Nat) (d : DialogId) (n : Nat) : Nat × Tbl DialogId Nat :=
  let r := match t.get d with
    | none => initialRSeq n
    | some r => if r < MAX_U32 then r + 1 else r
  (r, t.insert d r)

/-- The calls on an `RSeqManager`; `remove` is lib.rs 1796-1798. -/
inductive ROp
  | next (d : DialogId) (n : Nat)
  | remove (d : DialogId)

def rstep (t : Tbl DialogId Nat) : ROp → Tbl DialogId Nat
  | .next d n => (nextRSeq t d n).2
  | .remove d => t.remove d

/-! ## The answer to a PRACK -/

/-- sip-uas lib.rs 1460-1462 and siphond invite.rs 35-37 `dialog_id_key`. -/
def dialogIdKey (d : DialogId) : Str := d.callId ++ ':' :: d.localTag ++ ':' :: d.remoteTag

/-- sip-uas lib.rs 1465-1487 `validate_dialog_request`; its `extract_tag_param` (1448-1457) is `extract_tag` of the
dialog crate. -/
def validateDialogRequest (hs : Headers) (d : DialogId) : Run Bool :=
  match hs.get "Call-ID".toList, hs.get "From".toList, hs.get "To".toList with
  | some c, some f, some t =>
    if c ≠ d.callId then .done false
    else
      match extractTag f with
      | .panic => .panic
      | .done none => .done false
      | .done (some ft) =>
        match extractTag t with
        | .panic => .panic
        | .done tt => .done (decide (ft = d.remoteTag) && decide (tt = some d.localTag))
  | _, _, _ => .done false

/-- sip-uas lib.rs 1333-1346: the status for a refused PRACK, which depends on phrases in the text of the error: 400
for "missing RAck", "Invalid RAck", "does not match" and "Duplicate PRACK".  The texts are "PRACK missing RAck header",
"Invalid RAck format: ...", "Invalid RSeq in RAck: ...", "Invalid CSeq in RAck: ...", "Invalid method in RAck: ...",
"No pending reliable provisionals for dialog ..." and, for the rest, texts with "does not match" or "Duplicate PRACK".
Simplification: the dialog key at the end of the text does not contain one of the phrases. -/
def PErr.status : PErr → Nat
  | .missing | .format => 400
  | .badRSeq | .badCSeq | .badMethod | .noneForDialog => 481
  | .rseqMismatch | .cseqMismatch | .methodMismatch | .duplicate => 400

/-- sip-uas lib.rs 1330-1355 `handle_prack` for a request with the method PRACK: the status of the response, or `none`
for an error return (nothing is sent). -/
def handlePrack (s : Validator) (d : DialogId) (now : Nat) (hs : Headers) : Run (Option Nat × Validator) :=
  match validateDialogRequest hs d with
  | .panic => .panic
  | .done false => .done (none, s)
  | .done true =>
    match s.prack (dialogIdKey d) now hs with
    | (.error e, s) => .done (some e.status, s)
    | (.ok _, s) => .done (some 200, s)

/-! ## Retransmission of the provisional response -/

/-- invite.rs 52-73: the loop of `schedule_reliable_retransmit`, in milliseconds; `acked t` is the answer of
`is_pracked` when it is asked `t` after the response was sent.  The result are the times of the retransmissions.
The loop makes at most `fuel` rounds; it ends by itself within eleven (`C83_ends`). -/
def retransmitLoop (acked : Nat → Bool) : Nat → Nat → Nat → List Nat
  | 0, _, _ => []
  | fuel + 1, interval, elapsed =>
    let elapsed := elapsed + interval
    if acked elapsed then []
    else if 32000 ≤ elapsed then [elapsed]
    else elapsed :: retransmitLoop acked fuel (Nat.min (interval * 2) 4000) elapsed

def retransmits (acked : Nat → Bool) : List Nat := retransmitLoop acked 11 500 0

end Siphon.Dlg
