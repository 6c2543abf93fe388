import Verif.Base.Text
import Verif.Core.Headers
/-!
# Priority, Resource-Priority, Refer-Sub and the entity tags (sip-core: priority.rs, resource_priority.rs, refer_sub.rs, sip_etag.rs)

An error is `none`: its kind and message are not modelled.
-/
namespace Siphon.Prio

/-! ## Priority -/

/-- priority.rs 62-75 `PriorityValue`. -/
inductive Priority
  | emergency
  | urgent
  | normal
  | nonUrgent
  | unknown (s : Str)
  deriving DecidableEq, Repr

/-- priority.rs 7. -/
def MAX_PRIORITY_LENGTH : Nat := 32

/-- priority.rs 223-229: the characters of a priority. -/
def priorityChar (c : Char) : Bool := isAlnum c || ['!', '%', '\'', '*', '+', '-', '.', '^', '_', '`', '|', '~'].contains c

/-- priority.rs 202-237 `validate_priority_token`. -/
def validPriority (s : Str) : Bool :=
  !s.isEmpty && !(utf8Len s > MAX_PRIORITY_LENGTH) && !s.any isAsciiControl && s.all priorityChar

/-- priority.rs 79-87 `as_str` (also `Display`, 179-183). -/
def Priority.text : Priority → Str
  | .emergency => "emergency".toList
  | .urgent => "urgent".toList
  | .normal => "normal".toList
  | .nonUrgent => "non-urgent".toList
  | .unknown s => s

/-- priority.rs 133-149 `parse` (also `from_str`). -/
def Priority.parse (s : Str) : Option Priority :=
  if lower s = "emergency".toList then some .emergency
  else if lower s = "urgent".toList then some .urgent
  else if lower s = "normal".toList then some .normal
  else if lower s = "non-urgent".toList then some .nonUrgent
  else if validPriority s then some (.unknown (lower s))
  else none

/-- priority.rs 168-176 `urgency_level`. -/
def Priority.level : Priority → Option Nat
  | .emergency => some 3
  | .urgent => some 2
  | .normal => some 1
  | .nonUrgent => some 0
  | .unknown _ => none

/-! ## Resource-Priority -/

/-- resource_priority.rs 38-41. -/
def MAX_NAMESPACE_LENGTH : Nat := 64
def MAX_RP_LENGTH : Nat := 64
def MAX_VALUES : Nat := 10
def MAX_PARSE_INPUT : Nat := 512

/-- resource_priority.rs 94-97 `ResourcePriorityValue`. -/
structure Value where
  ns : Str
  prio : Str
  deriving DecidableEq, Repr

/-- resource_priority.rs 286-310 `validate_namespace`. -/
def validNs (s : Str) : Bool :=
  !s.isEmpty && !(utf8Len s > MAX_NAMESPACE_LENGTH) && !s.any (fun c => isAsciiControl c || isWs c)

/-- resource_priority.rs 312-336 `validate_priority`. -/
def validRp (s : Str) : Bool :=
  !s.isEmpty && !(utf8Len s > MAX_RP_LENGTH) && !s.any (fun c => isAsciiControl c || isWs c)

/-- resource_priority.rs 105-116 `ResourcePriorityValue::new`. -/
def Value.new (ns prio : Str) : Option Value :=
  if !validNs ns then none else if !validRp prio then none else some { ns := ns, prio := prio }

/-- resource_priority.rs 139-147 `ResourcePriorityValue::parse`. -/
def Value.parse (input : Str) : Option Value :=
  match splitOnce '.' (trim input) with
  | none => none
  | some (ns, prio) => Value.new ns prio

/-- resource_priority.rs 150-154 `Display`. -/
def Value.text (v : Value) : Str := v.ns ++ '.' :: v.prio

/-- resource_priority.rs 200-209 `add_value`. -/
def addValue (vs : List Value) (v : Value) : Option (List Value) :=
  if vs.length ≥ MAX_VALUES then none else some (vs ++ [v])

/-- resource_priority.rs 246-260: the loop over the parts. -/
def parseParts : List Str → List Value → Option (List Value)
  | [], acc => some acc
  | p :: ps, acc =>
    let part := trim p
    if part.isEmpty then parseParts ps acc
    else if acc.length ≥ MAX_VALUES then none
    else
      match Value.parse part with
      | none => none
      | some v => parseParts ps (acc ++ [v])

/-- resource_priority.rs 236-263 `ResourcePriorityHeader::parse`. -/
def parseHeader (input : Str) : Option (List Value) :=
  if utf8Len input > MAX_PARSE_INPUT then none else parseParts (splitChar ',' input) []

/-- resource_priority.rs 272-282 `Display`. -/
def headerText : List Value → Str
  | [] => []
  | [v] => v.text
  | v :: vs => v.text ++ ',' :: ' ' :: headerText vs

/-! ## Refer-Sub -/

/-- refer_sub.rs 101. -/
def MAX_REFER_SUB : Nat := 16

/-- refer_sub.rs 265-277 `parse`; the header is its one flag. -/
def referSub (input : Str) : Option Bool :=
  if utf8Len input > MAX_REFER_SUB then none
  else if lower (trim input) = "true".toList then some true
  else if lower (trim input) = "false".toList then some false
  else none

/-- refer_sub.rs 299-303 `Display`. -/
def referSubText (enabled : Bool) : Str := if enabled then "true".toList else "false".toList

/-! ## Entity tags -/

/-- sip_etag.rs 37. -/
def MAX_ENTITY_TAG_LENGTH : Nat := 128

/-- sip_etag.rs 88-94. -/
def etagChar (c : Char) : Bool := isAlnum c || ['-', '.', '!', '%', '*', '_', '+', '`', '\'', '~'].contains c

/-- sip_etag.rs 67-102 `validate_entity_tag`. -/
def validEtag (s : Str) : Bool :=
  !s.isEmpty && !(utf8Len s > MAX_ENTITY_TAG_LENGTH) && !s.any (fun c => isAsciiControl c || isWs c) && s.all etagChar

/-- sip_etag.rs 176-181, 203-205, 286-291, 313-315: `new` and `parse` of both headers; a header is its value. -/
def etag (s : Str) : Option Str := if validEtag s then some s else none

/-- sip_etag.rs 320-323 `matches_etag` (also 210-213 and 326-329): equality of the bytes, and so of the texts. -/
def matchesEtag (ifMatch tag : Str) : Bool := ifMatch == tag

end Siphon.Prio
