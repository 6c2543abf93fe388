import Verif.Base.BMap
import Verif.Core.Headers
import Verif.Auth.Params
/-!
# Event and Subscription-State (sip-core, event.rs; sip-parse, header_values.rs)

An error is `none`: its kind and message are not modelled.
-/
namespace Siphon.EventHdr

/-- event.rs 8-13. -/
def MAX_PACKAGE_LENGTH : Nat := 64
def MAX_ID_LENGTH : Nat := 256
def MAX_PARAM_NAME_LENGTH : Nat := 64
def MAX_PARAM_VALUE_LENGTH : Nat := 256
def MAX_PARAMS : Nat := 20
def MAX_STATE_LENGTH : Nat := 32

/-- event.rs 405-414 `is_token`. -/
def tokenChar (c : Char) : Bool := isAlnum c || ['-', '.', '!', '%', '*', '_', '+', '`', '\'', '~'].contains c

/-- event.rs 266-403 `validate_package`, `validate_id`, `validate_param_name`, `validate_param_value`, `validate_state`, which differ in the
length only; the search for control characters is left out, as they are no token characters. -/
def valid (max : Nat) (s : Str) : Bool := !s.isEmpty && !(utf8Len s > max) && s.all tokenChar

abbrev Params := BMap (Option Str)

/-- event.rs 100-124 and 180-204 `add_param` (also `with_param`). -/
def addParam (m : Params) (n : Str) (v : Option Str) : Option Params :=
  if !valid MAX_PARAM_NAME_LENGTH n then none
  else if !v.all (valid MAX_PARAM_VALUE_LENGTH) then none
  else if m.length ≥ MAX_PARAMS then none
  else if m.has (lower n) then none
  else some (m.insert (lower n) v)

/-- event.rs 144-146 and 220-222 `get_param`. -/
def getParam (m : Params) (n : Str) : Option (Option Str) := m.get (lower n)

/-- event.rs 51-56 `EventHeader`. -/
structure Event where
  package : Str
  id : Option Str
  params : Params
  deriving DecidableEq, Repr

/-- event.rs 226-231 `SubscriptionState`. -/
inductive State
  | active
  | pending
  | terminated
  | unknown (s : Str)
  deriving DecidableEq, Repr

/-- event.rs 60-68 `new`. -/
def Event.new (p : Str) : Option Event := if valid MAX_PACKAGE_LENGTH p then some ⟨p, none, []⟩ else none

/-- event.rs 71-75 `with_id`. -/
def Event.withId (h : Event) (i : Str) : Option Event := if valid MAX_ID_LENGTH i then some { h with id := some i } else none

/-- event.rs 235-245 `parse`. -/
def State.parse (s : Str) : Option State :=
  if lower s = "active".toList then some .active
  else if lower s = "pending".toList then some .pending
  else if lower s = "terminated".toList then some .terminated
  else if valid MAX_STATE_LENGTH s then some (.unknown s) else none

/-- event.rs 247-254 `as_str`. -/
def State.text : State → Str
  | .active => "active".toList
  | .pending => "pending".toList
  | .terminated => "terminated".toList
  | .unknown s => s

/-- header_values.rs 187-188 and 218-219: what one part says, if it is not blank; the value without quotes around it. -/
def item (t : Str) : Str × Option Str :=
  match splitOnce '=' t with
  | some (n, v) => (n, some (Auth.trimMatches '"' (trim v)))
  | none => (t, none)

/-- header_values.rs 182-186 and 213-217: the parts that are not blank.  The code reads and applies each part in turn; here they are read
first and applied then. -/
def items (ps : List Str) : List (Str × Option Str) := ((ps.map trim).filter (fun t => !t.isEmpty)).map item

/-- header_values.rs 182-205: the loop of `parse_event_header`; `has_id` is that the header has one. -/
def Event.apply : List (Str × Option Str) → Event → Option Event
  | [], h => some h
  | (n, v) :: xs, h =>
    if eqIgnoreCase n "id".toList then
      match v with
      | none => none
      | some i => if h.id.isSome then none else (h.withId i).bind (Event.apply xs)
    else
      match addParam h.params n v with
      | none => none
      | some m => Event.apply xs { h with params := m }

/-- header_values.rs 177-207 `parse_event_header`. -/
def parseEvent (v : Str) : Option Event :=
  match splitChar ';' v with
  | [] => none
  | p :: ps => (Event.new (trim p)).bind (Event.apply (items ps))

/-- header_values.rs 212-224: the loop of `parse_subscription_state`. -/
def addParams : List (Str × Option Str) → Params → Option Params
  | [], m => some m
  | (n, v) :: xs, m => (addParam m n v).bind (addParams xs)

/-- header_values.rs 208-226 `parse_subscription_state`. -/
def parseState (v : Str) : Option (State × Params) :=
  match splitChar ';' v with
  | [] => none
  | p :: ps => (State.parse (trim p)).bind (fun s => (addParams (items ps) []).map (fun m => (s, m)))

end Siphon.EventHdr
