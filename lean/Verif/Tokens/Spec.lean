import Verif.Tokens.Model
import Verif.Base.TextSpec
import Verif.Core.HeadersSpec
/-!
# What a list of tokens says (RFC 3261, 20.5, 20.29, 20.32, 20.37, 20.40)

Nothing here uses the functions that read or write lists.
-/
namespace Siphon.Tokens.Spec
open TextSpec HdrSpec

/-- A token of RFC 3261 of at most 64 bytes. -/
def Good (s : Str) : Prop := (Token s ∧ '^' ∉ s ∧ '|' ∉ s) ∧ utf8Len s ≤ 64

/-- `ts` are the pieces `ps` without the white space around them. -/
inductive Stripped : List Str → List Str → Prop
  | nil : Stripped [] []
  | cons {p t ps ts} : Strips isWs p t → Stripped ps ts → Stripped (p :: ps) (t :: ts)

/-- The text lists these tokens: one to fifty, between commas. -/
def Lists (v : Str) (ts : List Str) : Prop :=
  ts ≠ [] ∧ ts.length ≤ 50 ∧ (∀ t ∈ ts, Good t) ∧ ∃ ps, Pieces ',' v ps ∧ Stripped ps ts

/-- The list has the token, in any case. -/
def Has (l : List Str) (t : Str) : Prop := ∃ x ∈ l, SameName x t

end Siphon.Tokens.Spec
