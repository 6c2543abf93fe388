import Verif.Mwi.Model
import Verif.Base.TextSpec
import Verif.Core.HeadersSpec
/-!
# Message summaries: what a body says (RFC 3842)

Nothing here uses the functions that read or write a body.
-/
namespace Siphon.Mwi.Spec
open TextSpec HdrSpec

/-- At most `max` bytes and no control characters. -/
def Good (max : Nat) (s : Str) : Prop := utf8Len s ≤ max ∧ ∀ c ∈ s, isAsciiControl c = false

/-- The name of the line for a class of messages. -/
def className : Class → String
  | .voice => "Voice-Message"
  | .fax => "Fax-Message"
  | .pager => "Pager-Message"
  | .multimedia => "Multimedia-Message"
  | .text => "Text-Message"
  | .none => "None-Message"

/-- The name of the line for a field of a message. -/
def fieldName : Field → String
  | .to => "To"
  | .from => "From"
  | .subject => "Subject"
  | .date => "Date"
  | .priority => "Priority"
  | .messageId => "Message-ID"
  | .messageContext => "Message-Context"

/-- Two numbers of 32 bits with a slash between them. -/
def Pair (s : Str) (m n : Nat) : Prop :=
  ∃ a b, Pieces '/' s [a, b] ∧ Decimal a m ∧ Decimal b n ∧ m < 2 ^ 32 ∧ n < 2 ^ 32

/-- The numbers of a class: new and old messages, and the urgent ones in parentheses if there are. -/
inductive CountsText : Str → Counts → Prop
  | plain {s w n o} : Words s [w] → Pair w n o → CountsText s ⟨n, o, 0, 0⟩
  | urgent {s w u x ws n o un uo} : Words s (w :: u :: ws) → Pair w n o → Strips (fun c => c == '(' || c == ')') u x → Pair x un uo →
      CountsText s ⟨n, o, un, uo⟩
  | unclear {s w u x ws n o} : Words s (w :: u :: ws) → Pair w n o → Strips (fun c => c == '(' || c == ')') u x →
      (∀ un uo, ¬ Pair x un uo) → CountsText s ⟨n, o, 0, 0⟩

/-- What a line says. -/
inductive Line
  | blank
  | other
  | status (b : Bool)
  | wrong
  | account (a : Str)
  | counts (c : Class) (k : Counts)
  | field (f : Field) (v : Str)

/-- A line with a name and a value. -/
def Entry (s n v : Str) : Prop :=
  ∃ k w, Strips isWs s (k ++ ':' :: w) ∧ ':' ∉ k ∧ Strips isWs k n ∧ Strips isWs w v

/-- What a line says. -/
inductive Says : Str → Line → Prop
  | blank {s} : Strips isWs s [] → Says s .blank
  | noColon {s l} : Strips isWs s l → l ≠ [] → ':' ∉ l → Says s .other
  | yes {s n v} : Entry s n v → SameName n "Messages-Waiting".toList → SameName v "yes".toList → Says s (.status true)
  | no {s n v} : Entry s n v → SameName n "Messages-Waiting".toList → SameName v "no".toList → Says s (.status false)
  | wrong {s n v} : Entry s n v → SameName n "Messages-Waiting".toList → ¬ SameName v "yes".toList → ¬ SameName v "no".toList →
      Says s .wrong
  | account {s n v} : Entry s n v → SameName n "Message-Account".toList → Says s (.account v)
  | counts {s n v c k} : Entry s n v → SameName n (className c).toList → CountsText v k → Says s (.counts c k)
  | unreadable {s n v c} : Entry s n v → SameName n (className c).toList → (∀ k, ¬ CountsText v k) → Says s .other
  | field {s n v f} : Entry s n v → SameName n (fieldName f).toList → Says s (.field f v)
  | unknown {s n v} : Entry s n v → ¬ SameName n "Messages-Waiting".toList → ¬ SameName n "Message-Account".toList →
      (∀ c, ¬ SameName n (className c).toList) → (∀ f, ¬ SameName n (fieldName f).toList) → Says s .other

/-- The lines of a body. -/
inductive SayAll : List Str → List Line → Prop
  | nil : SayAll [] []
  | cons {s x ss xs} : Says s x → SayAll ss xs → SayAll (s :: ss) (x :: xs)

/-- The status lines. -/
def statuses (ls : List Line) : List Bool := ls.filterMap (fun l => match l with | .status b => some b | _ => none)

/-- The accounts. -/
def accounts (ls : List Line) : List Str := ls.filterMap (fun l => match l with | .account a => some a | _ => none)

/-- The counts given for a class. -/
def countsOf (c : Class) (ls : List Line) : List Counts :=
  ls.filterMap (fun l => match l with | .counts c' k => if c' = c then some k else none | _ => none)

/-- The values given for a field. -/
def valuesOf (f : Field) (ls : List Line) : List Str :=
  ls.filterMap (fun l => match l with | .field f' v => if f' = f then some v else none | _ => none)

/-- The groups of lines between blank lines. -/
def groups : List Line → List (List Line)
  | [] => [[]]
  | .blank :: t => [] :: groups t
  | x :: t => match groups t with | g :: gs => (x :: g) :: gs | [] => [[x]]

/-- The fields, in order. -/
def fieldsOf (g : List Line) : List (Field × Str) := g.filterMap (fun l => match l with | .field f v => some (f, v) | _ => none)

/-- What a group says of a message: of each field the last value; nothing, if it has no field. -/
def headerOf (g : List Line) : Option MsgHeader :=
  if (fieldsOf g).isEmpty then none
  else some ⟨(valuesOf .to g).getLast?, (valuesOf .from g).getLast?, (valuesOf .subject g).getLast?, (valuesOf .date g).getLast?,
    (valuesOf .priority g).getLast?, (valuesOf .messageId g).getLast?, (valuesOf .messageContext g).getLast?⟩

/-- What the lines say together: the last of each counts, and each value must be a good one. -/
structure Describes (ls : List Line) (s : Summary) : Prop where
  right : Line.wrong ∉ ls
  accountsGood : ∀ a ∈ accounts ls, Good 512 a
  fieldsGood : ∀ x ∈ fieldsOf ls, Good 1024 x.2
  waiting : (statuses ls).getLast? = some s.waiting
  account : s.account = (accounts ls).getLast?
  counts : ∀ c, s.messages.get c = (countsOf c ls).getLast?
  headers : s.headers = (groups ls).filterMap headerOf
  few : s.headers.length ≤ 50

/-- What a body says. -/
def Reads (body : Str) (s : Summary) : Prop :=
  utf8Len body ≤ 102400 ∧ ∃ ps ls, Pieces '\n' body ps ∧ SayAll ps ls ∧ Describes ls s

end Siphon.Mwi.Spec
