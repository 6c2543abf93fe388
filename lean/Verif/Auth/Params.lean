import Verif.Core.Msg
import Verif.Base.Table
/-!
# Authorization header values

Model of the generic credentials parser used for `Authorization` / `Proxy-Authorization`:
`crates/sip-parse/src/header_values.rs` 126-128, 446-447, 529-600 and
`crates/sip-core/src/auth.rs` 22-162, 259-288, 314-316.  A `BTreeMap` is a `Tbl` (association list
without duplicate keys); its iteration order is not observable here.
-/
namespace Siphon.Auth

/-- `str::trim_matches(c)`. -/
def trimMatches (c : Char) (s : Str) : Str :=
  ((s.dropWhile (· == c)).reverse.dropWhile (· == c)).reverse

/-- header_values.rs 553-600 `split_quoted_commas`: the loop, with the text after it.  `cur` is
`current`, `parts` is `parts`. -/
def splitQ (maxParts : Nat) : Str → (cur : Str) → (inQ esc : Bool) → (parts : List Str) → Option (List Str)
  | [], cur, inQ, _, parts =>
    if inQ then none
    else if !(trim cur).isEmpty then
      (if parts.length ≥ maxParts then none else some (parts ++ [trim cur]))
    else some parts
  | ch :: rest, cur, inQ, esc, parts =>
    if esc then splitQ maxParts rest (cur ++ [ch]) inQ false parts
    else if ch = '\\' ∧ inQ = true then splitQ maxParts rest (cur ++ [ch]) inQ true parts
    else if ch = '"' then splitQ maxParts rest (cur ++ [ch]) (!inQ) false parts
    else if ch = ',' ∧ inQ = false then
      if !(trim cur).isEmpty then
        (if parts.length ≥ maxParts then none
         else splitQ maxParts rest [] inQ false (parts ++ [trim cur]))
      else splitQ maxParts rest [] inQ false parts
    else splitQ maxParts rest (cur ++ [ch]) inQ false parts

/-- header_values.rs 446 `MAX_PARAMS`. -/
def MAX_PARAMS : Nat := 64

/-- header_values.rs 553 `split_quoted_commas`. -/
def splitQuotedCommas (s : Str) (maxParts : Nat) : Option (List Str) := splitQ maxParts s [] false false []

/-- sip-core auth.rs 22-25. -/
def MAX_SCHEME_LENGTH : Nat := 64
def MAX_AUTH_PARAMS : Nat := 30
def MAX_PARAM_NAME_LENGTH : Nat := 64
def MAX_PARAM_VALUE_LENGTH : Nat := 256

/-- sip-core auth.rs 143-162 `is_token_char`. -/
def isTokenChar (c : Char) : Bool :=
  isAlnum c || c ∈ ['!', '#', '$', '%', '&', '\'', '*', '+', '-', '.', '^', '_', '`', '|', '~']

/-- sip-core auth.rs 58-90 `validate_scheme`; 93-122 `validate_param_name` is the same check with the
same limit of 64 bytes. -/
def validToken (maxLen : Nat) (s : Str) : Bool :=
  !s.isEmpty && !(utf8Len s > maxLen) && !s.any isControl && s.all isTokenChar

/-- sip-core auth.rs 125-141 `validate_param_value`. -/
def validParamValue (v : Str) : Bool :=
  !(utf8Len v > MAX_PARAM_VALUE_LENGTH) && !v.any (fun c => isControl c && c != '\t')

/-- sip-core auth.rs 210-215 `AuthorizationHeader`. -/
structure AuthHeader where
  scheme : Str
  params : Tbl Str Str
  deriving DecidableEq

/-- sip-core auth.rs 265-283: the loop of `from_raw`. -/
def fromRawGo : List (Str × Str) → Tbl Str Str → Option (Tbl Str Str)
  | [], acc => some acc
  | (n, v) :: rest, acc =>
    if !validToken MAX_PARAM_NAME_LENGTH n then none
    else if !validParamValue v then none
    else if acc.contains (lower n) then none
    else if acc.length ≥ MAX_AUTH_PARAMS then none
    else fromRawGo rest (acc.insert (lower n) v)

/-- sip-core auth.rs 259-288 `AuthorizationHeader::from_raw(..).ok()`. -/
def fromRaw (scheme : Str) (params : Tbl Str Str) : Option AuthHeader :=
  if !validToken MAX_SCHEME_LENGTH scheme then none
  else (fromRawGo params []).map (fun p => { scheme := scheme, params := p })

/-- sip-core auth.rs 314-316 `param`. -/
def AuthHeader.param (h : AuthHeader) (n : Str) : Option Str := h.params.get (lower n)

/-- header_values.rs 539-547: the loop over the comma-separated parts. -/
def collectParams : List Str → Tbl Str Str → Option (Tbl Str Str)
  | [], acc => some acc
  | part :: rest, acc =>
    match splitOnce '=' part with
    | none => none
    | some (name, val) =>
      let key := lower (trim name)
      if acc.contains key then none
      else collectParams rest (acc.insert key (trimMatches '"' (trim val)))

/-- header_values.rs 529-551 `parse_auth_like_header` (= 126-128 `parse_authorization_header`). -/
def parseAuthorization (value : Str) : Option AuthHeader :=
  let t := trim value
  if t.isEmpty then none
  else
    let (first, remainder) := match splitOnce ' ' t with
      | some (a, b) => (a, b)
      | none => (t, [])
    let scheme := trim first
    match splitQuotedCommas remainder MAX_PARAMS with
    | none => none
    | some parts =>
      match collectParams parts [] with
      | none => none
      | some params => fromRaw scheme params

end Siphon.Auth
