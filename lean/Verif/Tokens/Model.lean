import Verif.Base.Text
import Verif.Core.Headers
/-!
# Lists of tokens: Allow, Supported, Require, Proxy-Require, Unsupported (sip-core, token_list.rs)

A list is the list of its texts; an error is `none`: its kind and message are not modelled.
-/
namespace Siphon.Tokens

/-- token_list.rs 43-44. -/
def MAX_TOKENS : Nat := 50
def MAX_TOKEN_LENGTH : Nat := 64

/-- token_list.rs 100-106 `is_valid_token_char`. -/
def validChar (c : Char) : Bool := isAlnum c || ['-', '.', '!', '%', '*', '_', '+', '`', '\'', '~'].contains c

/-- token_list.rs 73-97 `validate_token`. -/
def validToken (s : Str) : Bool := !s.isEmpty && !(utf8Len s > MAX_TOKEN_LENGTH) && s.all validChar

/-- token_list.rs 162-170: the loop of `from_tokens`. -/
def collect : List Str → List Str → Option (List Str)
  | [], acc => some acc
  | t :: ts, acc =>
    if acc.length ≥ MAX_TOKENS then none
    else if !validToken t then none
    else collect ts (acc ++ [t])

/-- token_list.rs 155-173 `from_tokens` (also 195-197 `from_slice`). -/
def fromTokens (ts : List Str) : Option (List Str) := collect ts []

/-- token_list.rs 210-218 `parse`. -/
def parse (input : Str) : Option (List Str) :=
  if (trim input).isEmpty then none else fromTokens ((splitChar ',' (trim input)).map trim)

/-- token_list.rs 236-238 `contains`. -/
def contains (l : List Str) (t : Str) : Bool := l.any (fun x => eqIgnoreCase x t)

/-- token_list.rs 241-250 `add_token` (also 253-256 `with_token`). -/
def add (l : List Str) (t : Str) : Option (List Str) :=
  if l.length ≥ MAX_TOKENS then none
  else if !validToken (trim t) then none
  else some (l ++ [trim t])

/-- token_list.rs 270-280 `Display`. -/
def text : List Str → Str
  | [] => []
  | [t] => t
  | t :: ts => t ++ ',' :: ' ' :: text ts

/-- header_values.rs 118-124 `parse_allow_header`, `parse_supported_header`: what cannot be read is an empty list. -/
def parseAllow (v : Str) : List Str := (parse v).getD []

end Siphon.Tokens
