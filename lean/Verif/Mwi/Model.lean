import Verif.Base.Text
import Verif.Base.Num
/-!
# Message summaries (RFC 3842)

Model of `crates/sip-core/src/message_waiting.rs`.  Lengths are lengths in UTF-8; an error is `none`, its kind and text are not modelled.
-/
namespace Siphon.Mwi

/-- message_waiting.rs 262-269 `MessageContextClass`. -/
inductive Class | voice | fax | pager | multimedia | text | none
  deriving DecidableEq, Repr

/-- The classes in the order that is derived for them (message_waiting.rs 261). -/
def Class.all : List Class := [.voice, .fax, .pager, .multimedia, .text, .none]

/-- message_waiting.rs 273-282 `header_name`. -/
def Class.headerName : Class → Str
  | .voice => "Voice-Message".toList
  | .fax => "Fax-Message".toList
  | .pager => "Pager-Message".toList
  | .multimedia => "Multimedia-Message".toList
  | .text => "Text-Message".toList
  | .none => "None-Message".toList

/-- message_waiting.rs 285-295 `from_header_name`. -/
def Class.fromName (name : Str) : Option Class :=
  if lower name = "voice-message".toList then some .voice
  else if lower name = "fax-message".toList then some .fax
  else if lower name = "pager-message".toList then some .pager
  else if lower name = "multimedia-message".toList then some .multimedia
  else if lower name = "text-message".toList then some .text
  else if lower name = "none-message".toList then some .none
  else Option.none

/-- message_waiting.rs 321-326 `MessageCounts`. -/
structure Counts where
  new : Nat
  old : Nat
  urgentNew : Nat
  urgentOld : Nat
  deriving DecidableEq, Repr

/-- message_waiting.rs 387-389 `has_urgent`. -/
def Counts.hasUrgent (k : Counts) : Bool := decide (k.urgentNew > 0) || decide (k.urgentOld > 0)

/-- message_waiting.rs 102 `messages`: a `BTreeMap` from the six classes, kept as one optional value for each. -/
structure Messages where
  voice : Option Counts := none
  fax : Option Counts := none
  pager : Option Counts := none
  multimedia : Option Counts := none
  text : Option Counts := none
  none : Option Counts := none
  deriving DecidableEq, Repr

/-- `BTreeMap::get`. -/
def Messages.get (m : Messages) : Class → Option Counts
  | .voice => m.voice
  | .fax => m.fax
  | .pager => m.pager
  | .multimedia => m.multimedia
  | .text => m.text
  | .none => m.none

/-- `BTreeMap::insert`. -/
def Messages.set (m : Messages) (c : Class) (k : Counts) : Messages :=
  match c with
  | .voice => { m with voice := some k }
  | .fax => { m with fax := some k }
  | .pager => { m with pager := some k }
  | .multimedia => { m with multimedia := some k }
  | .text => { m with text := some k }
  | .none => { m with none := some k }

/-- The values in the order of the classes. -/
def Messages.values (m : Messages) : List Counts := Class.all.filterMap m.get

/-- The optional fields of message_waiting.rs 411-419. -/
inductive Field | to | «from» | subject | date | priority | messageId | messageContext
  deriving DecidableEq, Repr

/-- The order of message_waiting.rs 231-251. -/
def Field.all : List Field := [.to, .from, .subject, .date, .priority, .messageId, .messageContext]

/-- message_waiting.rs 411-419 `MessageHeader`. -/
structure MsgHeader where
  to : Option Str := none
  «from» : Option Str := none
  subject : Option Str := none
  date : Option Str := none
  priority : Option Str := none
  messageId : Option Str := none
  messageContext : Option Str := none
  deriving DecidableEq, Repr

/-- The getters of message_waiting.rs 491-523. -/
def MsgHeader.get (h : MsgHeader) : Field → Option Str
  | .to => h.to
  | .from => h.from
  | .subject => h.subject
  | .date => h.date
  | .priority => h.priority
  | .messageId => h.messageId
  | .messageContext => h.messageContext

/-- message_waiting.rs 720-735 `validate_account`. -/
def validAccount (s : Str) : Bool := !(utf8Len s > 512) && !s.any isAsciiControl

/-- message_waiting.rs 737-752 `validate_header_value`. -/
def validHeaderValue (s : Str) : Bool := !(utf8Len s > 1024) && !s.any isAsciiControl

/-- message_waiting.rs 436-488 `with_to` to `with_message_context`. -/
def MsgHeader.withField (h : MsgHeader) (f : Field) (v : Str) : Option MsgHeader :=
  if !validHeaderValue v then none
  else
    some (match f with
      | .to => { h with to := some v }
      | .from => { h with «from» := some v }
      | .subject => { h with subject := some v }
      | .date => { h with date := some v }
      | .priority => { h with priority := some v }
      | .messageId => { h with messageId := some v }
      | .messageContext => { h with messageContext := some v })

/-- message_waiting.rs 98-104 `MessageSummary`. -/
structure Summary where
  waiting : Bool
  account : Option Str := none
  messages : Messages := {}
  headers : List MsgHeader := []
  deriving DecidableEq, Repr

/-- message_waiting.rs 122-127 `set_account`. -/
def Summary.setAccount (s : Summary) (a : Str) : Option Summary :=
  if !validAccount a then none else some { s with account := some a }

/-- message_waiting.rs 134-147 `add_message_class`. -/
def Summary.addClass (s : Summary) (c : Class) (k : Counts) : Option Summary :=
  if (s.messages.get c).isNone ∧ s.messages.values.length ≥ 10 then none
  else some { s with messages := s.messages.set c k }

/-- message_waiting.rs 154-163 `add_message_header`. -/
def Summary.addHeader (s : Summary) (h : MsgHeader) : Option Summary :=
  if s.headers.length ≥ 50 then none else some { s with headers := s.headers ++ [h] }

/-- The sum of `u32`s; an overflow is `none` (a panic in debug builds, a wrong sum in release builds). -/
def sumU32 : List Nat → Nat → Option Nat
  | [], acc => some acc
  | n :: t, acc => if acc + n < 2 ^ 32 then sumU32 t (acc + n) else none

/-- message_waiting.rs 191-193 `total_new`. -/
def Summary.totalNew (s : Summary) : Option Nat := sumU32 (s.messages.values.map (·.new)) 0

/-- message_waiting.rs 196-198 `total_old`. -/
def Summary.totalOld (s : Summary) : Option Nat := sumU32 (s.messages.values.map (·.old)) 0

/-- message_waiting.rs 201-203 `has_urgent`. -/
def Summary.hasUrgent (s : Summary) : Bool := s.messages.values.any Counts.hasUrgent

/-- The name that message_waiting.rs 231-251 writes. -/
def Field.headerName : Field → Str
  | .to => "To".toList
  | .from => "From".toList
  | .subject => "Subject".toList
  | .date => "Date".toList
  | .priority => "Priority".toList
  | .messageId => "Message-ID".toList
  | .messageContext => "Message-Context".toList

/-- message_waiting.rs 218-228: the line of a class, without its end. -/
def countsLine (c : Class) (k : Counts) : Str :=
  c.headerName ++ ": ".toList ++ showNat k.new ++ '/' :: showNat k.old ++
    (if k.urgentNew > 0 ∨ k.urgentOld > 0 then " (".toList ++ showNat k.urgentNew ++ '/' :: showNat k.urgentOld ++ ")".toList else [])

/-- message_waiting.rs 206-255 `Display`: the lines. -/
def Summary.lines (s : Summary) : List Str :=
  ["Messages-Waiting: ".toList ++ (if s.waiting then "yes".toList else "no".toList)] ++
  s.account.toList.map (fun a => "Message-Account: ".toList ++ a) ++
  Class.all.filterMap (fun c => (s.messages.get c).map (countsLine c)) ++
  s.headers.flatMap (fun h => Field.all.filterMap (fun f => (h.get f).map (fun v => f.headerName ++ ": ".toList ++ v)))

/-- message_waiting.rs 206-255 `Display`; `writeln` ends each line with a line feed. -/
def Summary.show (s : Summary) : Str := (s.lines.map (· ++ ['\n'])).flatten

/-- `trim_matches` of message_waiting.rs 701. -/
def trimParens (s : Str) : Str :=
  ((s.dropWhile (fun c => c == '(' || c == ')')).reverse.dropWhile (fun c => c == '(' || c == ')')).reverse

/-- Two numbers with a slash between them, as in message_waiting.rs 689-695 and 702-707. -/
def readPair (s : Str) : Option (Nat × Nat) :=
  match splitChar '/' s with
  | [a, b] =>
    match parseDec 4294967295 a, parseDec 4294967295 b with
    | some m, some n => some (m, n)
    | _, _ => none
  | _ => none

/-- message_waiting.rs 680-716 `parse_message_counts`. -/
def parseCounts (s : Str) : Option Counts :=
  match splitWhitespace s with
  | [] => none
  | w :: ws =>
    match readPair w with
    | none => none
    | some (n, o) =>
      match ws with
      | [] => some ⟨n, o, 0, 0⟩
      | u :: _ =>
        match readPair (trimParens u) with
        | some (un, uo) => some ⟨n, o, un, uo⟩
        | none => some ⟨n, o, 0, 0⟩

/-- The names of message_waiting.rs 602-662. -/
def Field.fromName (name : Str) : Option Field :=
  if name = "to".toList then some .to
  else if name = "from".toList then some .from
  else if name = "subject".toList then some .subject
  else if name = "date".toList then some .date
  else if name = "priority".toList then some .priority
  else if name = "message-id".toList then some .messageId
  else if name = "message-context".toList then some .messageContext
  else none

/-- The variables of the loop of message_waiting.rs 556-558. -/
structure St where
  sum : Summary
  cur : Option MsgHeader
  found : Bool

/-- One turn of the loop of message_waiting.rs 560-664. -/
def step (st : St) (raw : Str) : Option St :=
  let line := trim raw
  if line.isEmpty then
    match st.cur with
    | some h => (st.sum.addHeader h).map (fun s => { st with sum := s, cur := none })
    | none => some st
  else
    match splitOnce ':' line with
    | none => some st
    | some (n, v) =>
      let name := lower (trim n)
      let value := trim v
      if name = "messages-waiting".toList then
        if eqIgnoreCase value "yes".toList then some { st with sum := { st.sum with waiting := true }, found := true }
        else if eqIgnoreCase value "no".toList then some { st with sum := { st.sum with waiting := false }, found := true }
        else none
      else if name = "message-account".toList then (st.sum.setAccount value).map (fun s => { st with sum := s })
      else if "-message".toList.isSuffixOf name then
        match Class.fromName name with
        | some c =>
          match parseCounts value with
          | some k => (st.sum.addClass c k).map (fun s => { st with sum := s })
          | none => some st
        | none => some st
      else
        match Field.fromName name with
        | some f =>
          ((match st.cur with | some h => h | none => {}).withField f value).map (fun h => { st with cur := some h })
        | none => some st

/-- The loop of message_waiting.rs 560-664. -/
def run : List Str → St → Option St
  | [], st => some st
  | l :: ls, st => (step st l).bind (run ls)

/-- message_waiting.rs 666-677: the end of the body. -/
def finish (st : St) : Option Summary :=
  match (match st.cur with | some h => st.sum.addHeader h | none => some st.sum) with
  | none => none
  | some s => if st.found then some s else none

/-- message_waiting.rs 547-678 `parse_message_summary`.  Simplified: `str::lines` takes a carriage return before a line feed off the line,
which `trim` does as well, and leaves out an empty last line, which would only close a header that the end of the body closes too. -/
def parse (body : Str) : Option Summary :=
  if utf8Len body > 102400 then none
  else (run (splitChar '\n' body) ⟨⟨false, none, {}, []⟩, none, false⟩).bind finish

end Siphon.Mwi
