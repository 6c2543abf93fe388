import Verif.Event.Model
/-!
# Media types (sip-core, mime.rs)

An error is `none`: its kind and message are not modelled.
-/
namespace Siphon.Mime

/-- mime.rs 8-12. -/
def MAX_TYPE_LENGTH : Nat := 64
def MAX_SUBTYPE_LENGTH : Nat := 64
def MAX_PARAM_NAME_LENGTH : Nat := 64
def MAX_PARAM_VALUE_LENGTH : Nat := 256
def MAX_PARAMS : Nat := 20

/-- mime.rs 91-95 `MimeType`. -/
structure Mime where
  top : Str
  sub : Str
  params : BMap Str
  deriving DecidableEq, Repr

/-- mime.rs 420-429 `is_token`; the characters are those of event.rs. -/
def isToken (s : Str) : Bool := !s.isEmpty && s.all EventHdr.tokenChar

/-- mime.rs 318-418 `validate_type`, `validate_subtype`, `validate_param_name`, which differ in the length only; the search for control
characters is left out, as they are no token characters. -/
def valid (max : Nat) (s : Str) : Bool := !s.isEmpty && !(utf8Len s > max) && s.all EventHdr.tokenChar

/-- mime.rs 449-471: the text between quotes.  The search for escaped control characters is left out: the whole value has none. -/
def unquote : Str → Option Str
  | [] => some []
  | c :: t =>
    if c = '\\' then
      match t with
      | [] => none
      | d :: t' => (unquote t').map (d :: ·)
    else if c = '"' then none
    else (unquote t).map (c :: ·)

/-- mime.rs 431-482 `normalize_param_value`. -/
def normalize (v : Str) : Option Str :=
  if v.isEmpty then none
  else if utf8Len v > MAX_PARAM_VALUE_LENGTH then none
  else if v.any isAsciiControl then none
  else if v.head? = some '"' ∧ v.getLast? = some '"' ∧ v.length ≥ 2 then unquote (v.drop 1).dropLast
  else if isToken v then some v
  else none

/-- mime.rs 121-136 `new`. -/
def Mime.new (a b : Str) : Option Mime :=
  if !valid MAX_TYPE_LENGTH a then none
  else if !valid MAX_SUBTYPE_LENGTH b then none
  else some ⟨lower a, lower b, []⟩

/-- mime.rs 163-188 `add_param` (also `with_param`). -/
def addParam (m : BMap Str) (n v : Str) : Option (BMap Str) :=
  if !valid MAX_PARAM_NAME_LENGTH n then none
  else if m.length ≥ MAX_PARAMS then none
  else if m.has (lower n) then none
  else (normalize v).map (fun w => m.insert (lower n) w)

def Mime.add (m : Mime) (n v : Str) : Option Mime := (addParam m.params n v).map (fun p => { m with params := p })

/-- mime.rs 265-269 `param`. -/
def Mime.param (m : Mime) (n : Str) : Option Str := m.params.get (lower n)

/-- mime.rs 236-242. -/
def escape : Str → Str
  | [] => []
  | c :: t => if c = '\\' ∨ c = '"' then '\\' :: c :: escape t else c :: escape t

/-- mime.rs 233-245. -/
def valueText (v : Str) : Str := if isToken v then v else '"' :: (escape v ++ ['"'])

/-- mime.rs 229-246. -/
def paramsText : BMap Str → Str
  | [] => []
  | (n, v) :: t => ';' :: (n ++ '=' :: valueText v) ++ paramsText t

/-- mime.rs 210-248, 282-286 `as_str`, `to_string_with_params`, `Display`. -/
def Mime.text (m : Mime) : Str := m.top ++ '/' :: m.sub ++ paramsText m.params

/-- mime.rs 509-522: the parameters. -/
def readParams : List Str → BMap Str → Option (BMap Str)
  | [], m => some m
  | p :: ps, m =>
    if (trim p).isEmpty then readParams ps m
    else
      match splitOnce '=' (trim p) with
      | none => none
      | some (n, v) =>
        match addParam m (trim n) (trim v) with
        | none => none
        | some m' => readParams ps m'

/-- mime.rs 486-525 `parse_mime_type`. -/
def parse (s : Str) : Option Mime :=
  match splitChar ';' s with
  | [] => none
  | p :: ps =>
    match splitChar '/' (trim p) with
    | [a, b] =>
      match Mime.new (trim a) (trim b) with
      | none => none
      | some m => (readParams ps m.params).map (fun q => { m with params := q })
    | _ => none

end Siphon.Mime
