import Verif.Core.Uri
import Verif.Base.Strip
/-!
# Via header values

`crates/sip-core/src/via.rs`.  The error values are not modelled: `none` is any `Err`.
-/
namespace Siphon.Via

/-- via.rs 33 -/
def MAX_TRANSPORT_LENGTH : Nat := 32
/-- via.rs 34 -/
def MAX_SENT_BY_LENGTH : Nat := 256
/-- via.rs 35 -/
def MAX_PARAM_NAME_LENGTH : Nat := 64
/-- via.rs 36 -/
def MAX_PARAM_VALUE_LENGTH : Nat := 256
/-- via.rs 37 -/
def MAX_PARAMS : Nat := 20

/-- via.rs 284-291 `ViaHeader`. -/
structure Via where
  transport : Str
  sentBy : Str
  params : BMap (Option Str)
  deriving DecidableEq, Repr

/-- via.rs 72-102 `validate_transport` (251-257 `is_token_char` is the character class of uri.rs 776-782). -/
def validTransport (t : Str) : Bool :=
  !t.isEmpty && utf8Len t ≤ MAX_TRANSPORT_LENGTH && !t.any isControl && t.all isUriTokenChar

/-- via.rs 235-249 `validate_port`. -/
def validPort (p : Str) : Bool :=
  !p.isEmpty && p.all isDigit
    && (match parseDec 4294967295 p with
        | some n => decide (1 ≤ n) && decide (n ≤ 65535)
        | none => false)

/-- via.rs 126-151: the part of `validate_sent_by` for a value that starts with `[`; `t` is what follows
the bracket. -/
def validV6 (t : Str) : Bool :=
  match splitOnce ']' t with
  | none => false
  | some (host, rest) =>
    !host.isEmpty && host.all (fun c => isHexDigit c || c == ':' || c == '.')
      && (match rest with
          | [] => true
          | ':' :: p => validPort p
          | _ => false)

/-- via.rs 153-189: the part of `validate_sent_by` for a value that does not start with `[`. -/
def validName (s : Str) : Bool :=
  !s.contains '[' && !s.contains ']' && decide (s.count ':' ≤ 1)
    && (match splitLast ':' s with
        | some (host, p) => !host.isEmpty && host.all isHostChar && validPort p
        | none => !s.isEmpty && s.all isHostChar)

/-- via.rs 105-190 `validate_sent_by`. -/
def validSentBy (s : Str) : Bool :=
  !s.isEmpty && utf8Len s ≤ MAX_SENT_BY_LENGTH && !s.any isControl
    && (match s with
        | '[' :: t => validV6 t
        | _ => validName s)

/-- via.rs 193-214 `validate_param_name`. -/
def validParamName (n : Str) : Bool :=
  !n.isEmpty && utf8Len n ≤ MAX_PARAM_NAME_LENGTH && n.all isUriTokenChar

/-- via.rs 217-233 `validate_param_value`. -/
def validParamValue (v : Str) : Bool := utf8Len v ≤ MAX_PARAM_VALUE_LENGTH && !v.any isControl

/-- via.rs 315-330 `ViaHeader::new`. -/
def Via.new (transport sentBy : Str) : Option Via :=
  if validTransport transport && validSentBy sentBy then
    some { transport := transport, sentBy := sentBy, params := [] }
  else none

/-- via.rs 411-446: the parameters. -/
def parseParams : List Str → BMap (Option Str) → Option (BMap (Option Str))
  | [], acc => some acc
  | p :: ps, acc =>
    if acc.length ≥ MAX_PARAMS then none
    else
      let p := trim p
      if p.isEmpty then parseParams ps acc
      else
        match splitOnce '=' p with
        | some (k, v) =>
          let k := trim k
          let v := trim v
          if !validParamName k || !validParamValue v then none
          else if acc.has (lower k) then none
          else parseParams ps (acc.insert (lower k) (some v))
        | none =>
          if !validParamName p then none
          else if acc.has (lower p) then none
          else parseParams ps (acc.insert (lower p) none)

/-- via.rs 356: the characters removed at both ends of the header value. -/
def isBlank (c : Char) : Bool := c == ' ' || c == '\t'

/-- via.rs 349-453 `ViaHeader::parse`. -/
def Via.parse (input : Str) : Option Via :=
  if input.any (fun c => isControl c && c != '\t') then none
  else
    let trimmed := stripBoth isBlank input
    if trimmed.isEmpty then none
    else
      match splitChar ';' trimmed with
      | [] => none
      | first :: parts =>
        match splitWhitespace (trim first) with
        | [protocol, sentBy] =>
          match splitChar '/' protocol with
          | [name, version, transport] =>
            if !eqIgnoreCase name "SIP".toList then none
            else if version ≠ "2.0".toList then none
            else if !validTransport transport then none
            else if !validSentBy sentBy then none
            else (parseParams parts []).map (fun ps => { transport := transport, sentBy := sentBy, params := ps })
          | _ => none
        | _ => none

/-- via.rs 481-483 `param`: `none` when absent, `some none` when present without a value. -/
def Via.param (v : Via) (name : Str) : Option (Option Str) := v.params.get (lower name)

/-- via.rs 504-511, 536-543, 567-574: the value of a new parameter is validated. -/
def validValue : Option Str → Bool
  | some v => validParamValue v
  | none => true

/-- via.rs 486-515 `with_param` (and 518-547 `add_param`, the same text). -/
def Via.withParam (v : Via) (name : Str) (value : Option Str) : Option Via :=
  if !validParamName name then none
  else if v.params.has (lower name) then none
  else if v.params.length ≥ MAX_PARAMS then none
  else if !validValue value then none
  else some { v with params := v.params.insert (lower name) value }

/-- via.rs 557-580 `set_param`. -/
def Via.setParam (v : Via) (name : Str) (value : Option Str) : Option Via :=
  if !validParamName name then none
  else if !v.params.has (lower name) && v.params.length ≥ MAX_PARAMS then none
  else if !validValue value then none
  else some { v with params := v.params.insert (lower name) value }

/-- via.rs 583-597 `Display` (the parameters are written as those of a URI). -/
def Via.show (v : Via) : Str :=
  "SIP/2.0/".toList ++ v.transport ++ ' ' :: v.sentBy ++ renderParams v.params

end Siphon.Via
