import Verif.Mime.Model
import Verif.Event.Spec
/-!
# Media types (RFC 2045, RFC 3261, 25.1)

Nothing here uses the functions that read or write media types.
-/
namespace Siphon.Mime.Spec
open TextSpec HdrSpec
open EventHdr.Spec (Good)

/-- A media type that the API gives out. -/
inductive Made : Mime → Prop
  | new {a b m} : Mime.new a b = some m → Made m
  | add {m n v m'} : Made m → m.add n v = some m' → Made m'

/-- Type, subtype and names are tokens in small letters, each name comes once and in order, there are at most twenty, and no value has a
control character. -/
structure Proper (m : Mime) : Prop where
  top : Good 64 m.top ∧ lower m.top = m.top
  sub : Good 64 m.sub ∧ lower m.sub = m.sub
  order : m.params.Pairwise (fun a b => a.1 < b.1)
  count : m.params.length ≤ 20
  names : ∀ e ∈ m.params, Good 64 e.1 ∧ lower e.1 = e.1
  values : ∀ e ∈ m.params, ∀ c ∈ e.2, isAsciiControl c = false

/-- `q` is `v` between quotes, with a backslash before each quote and backslash. -/
inductive Escaped : Str → Str → Prop
  | nil : Escaped [] []
  | plain {c v q} : c ≠ '"' → c ≠ '\\' → Escaped v q → Escaped (c :: v) (c :: q)
  | esc {c v q} : Escaped v q → Escaped (c :: v) ('\\' :: c :: q)

/-- What a value text stands for: itself, if a token, or what is between its quotes. -/
inductive Denotes : Str → Str → Prop
  | token {v} : Good 256 v → Denotes v v
  | quoted {v q} : Escaped v q → utf8Len q ≤ 254 → (∀ c ∈ q, isAsciiControl c = false) → Denotes ('"' :: q ++ ['"']) v

/-- The names and values that the parts name, without the blank parts; white space around a name or a value does not count. -/
inductive Items : List Str → List (Str × Str) → Prop
  | nil : Items [] []
  | blank {p ps xs} : Strips isWs p [] → Items ps xs → Items (p :: ps) xs
  | item {p n v n' v' ps xs} : Strips isWs p (n ++ '=' :: v) → '=' ∉ n → Strips isWs n n' → Strips isWs v v' → Items ps xs →
      Items (p :: ps) ((n', v') :: xs)

/-- Adding parameters one after the other. -/
inductive Adds : Mime → List (Str × Str) → Mime → Prop
  | nil {m} : Adds m [] m
  | cons {m n v m1 xs m2} : m.add n v = some m1 → Adds m1 xs m2 → Adds m ((n, v) :: xs) m2

/-- A value that can be sent and read: no semicolon, and not too long when written. -/
def Fits (v : Str) : Prop := ';' ∉ v ∧ utf8Len v + (v.filter (fun c => c = '"' ∨ c = '\\')).length ≤ 254

end Siphon.Mime.Spec
