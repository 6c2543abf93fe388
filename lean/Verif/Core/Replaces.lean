import Verif.Base.Text
/-!
# The Replaces header (sip-core, replaces.rs)

The four fields of the header are kept as they are.  An error is `none`: its kind and message are not modelled.
-/
namespace Siphon.Replaces

/-- replaces.rs 30 `MAX_CALL_ID_LENGTH` -/
def MAX_CALL_ID_LENGTH : Nat := 256
/-- replaces.rs 31 `MAX_TAG_LENGTH` -/
def MAX_TAG_LENGTH : Nat := 128
/-- replaces.rs 32 `MAX_PARSE_INPUT` -/
def MAX_PARSE_INPUT : Nat := 1024

/-- replaces.rs 118-123 `ReplacesHeader` -/
structure Header where
  callId : Str
  toTag : Str
  fromTag : Str
  earlyOnly : Bool
  deriving DecidableEq, Repr

/-- replaces.rs 330-349 `validate_call_id` -/
def validCallId (s : Str) : Bool :=
  if s.isEmpty then false
  else if utf8Len s > MAX_CALL_ID_LENGTH then false
  else if s.any isAsciiControl then false
  else true

/-- replaces.rs 351-370 `validate_tag` -/
def validTag (s : Str) : Bool :=
  if s.isEmpty then false
  else if utf8Len s > MAX_TAG_LENGTH then false
  else if s.any isAsciiControl then false
  else true

/-- replaces.rs 149-164 `new` -/
def Header.new (callId toTag fromTag : Str) : Option Header :=
  if !validCallId callId then none
  else if !validTag toTag then none
  else if !validTag fromTag then none
  else some ⟨callId, toTag, fromTag, false⟩

/-- replaces.rs 186-189 `with_early_only` -/
def Header.withEarlyOnly (h : Header) (b : Bool) : Header := { h with earlyOnly := b }

/-- replaces.rs 263-297: the loop of `parse` over the (trimmed) parameters, with the to-tag, the from-tag and the flag read
so far. -/
def readParams : List Str → Option Str → Option Str → Bool → Option (Option Str × Option Str × Bool)
  | [], a, b, e => some (a, b, e)
  | p :: ps, a, b, e =>
    if eqIgnoreCase p "early-only".toList then readParams ps a b true
    else
      match splitOnce '=' p with
      | some (k, v) =>
        if eqIgnoreCase (trim k) "to-tag".toList then
          if !validTag (trim v) then none
          else if a.isSome then none
          else readParams ps (some (trim v)) b e
        else if eqIgnoreCase (trim k) "from-tag".toList then
          if !validTag (trim v) then none
          else if b.isSome then none
          else readParams ps a (some (trim v)) e
        else none
      | none => none

/-- replaces.rs 238-309 `parse`; `split` never gives an empty list, so the `[]` case is 251-253, which is never reached. -/
def Header.parse (s : Str) : Option Header :=
  if utf8Len s > MAX_PARSE_INPUT then none
  else
    match (splitChar ';' (trim s)).map trim with
    | [] => none
    | c :: ps =>
      if !validCallId c then none
      else
        match readParams ps none none false with
        | none => none
        | some (a, b, e) =>
          match a, b with
          | some a, some b => some ⟨c, a, b, e⟩
          | _, _ => none

/-- replaces.rs 312-326 `Display` -/
def Header.show (h : Header) : Str :=
  h.callId ++ ";to-tag=".toList ++ h.toTag ++ ";from-tag=".toList ++ h.fromTag ++
    (if h.earlyOnly then ";early-only".toList else [])

end Siphon.Replaces
