import Verif.Parse.Spec
import Verif.Base.Num
/-!
# What a written message looks like, and what reading it gives

The lines of a request and of a response, and the message that a reader finds in them. Decimal numbers are written with
`showNat` (`Verif.Base.Num`).
-/
namespace Siphon.Parse.Spec

open Siphon.HdrSpec Siphon.TextSpec

/-! ## Messages the API can build -/

/-- The method comes from a token, the URI is one that the URI parser accepts, the headers are storable, there are at
most 200 of them, and the body has at most 10 MiB. -/
structure BuiltRequest (r : Siphon.Request) : Prop where
  method : ∃ t, Names t r.method
  uri : ∃ u, Uri.parse r.uri = some u
  headers : ∀ h ∈ r.headers.inner, Storable h
  count : r.headers.inner.length ≤ 200
  body : r.body.length ≤ 10485760

/-- The status code is from 100 to 699, the reason has at most 256 bytes and no control character, and the headers and
the body are as in a request. -/
structure BuiltResponse (r : Siphon.Response) : Prop where
  code : 100 ≤ r.code ∧ r.code ≤ 699
  reason : utf8Len r.reason ≤ 256 ∧ ∀ c ∈ r.reason, 32 ≤ c.toNat ∧ c.toNat ≠ 127
  headers : ∀ h ∈ r.headers.inner, Storable h
  count : r.headers.inner.length ≤ 200
  body : r.body.length ≤ 10485760

/-! ## Lines -/

/-- `Content-Length`, long or compact. -/
def LengthName (n : Str) : Prop := SameName n "Content-Length".toList ∨ SameName n "l".toList

/-- A request is written with these four names in their usual capitals, and all other names as they are. -/
def ShownName (n n' : Str) : Prop :=
  (∃ c ∈ ["Via", "Contact", "Route", "Record-Route"], SameName n c.toList ∧ n' = c.toList) ∨
  ((∀ c ∈ ["Via", "Contact", "Route", "Record-Route"], ¬ SameName n c.toList) ∧ n' = n)

/-- One line for each header that is not a Content-Length, in order. `L h l` says that `l` is the line of `h`. -/
inductive HeaderLines (L : Header → Str → Prop) : List Header → List Str → Prop
  | nil : HeaderLines L [] []
  | skip {h hs ls} : LengthName h.name → HeaderLines L hs ls → HeaderLines L (h :: hs) ls
  | line {h l hs ls} : ¬ LengthName h.name → L h l → HeaderLines L hs ls → HeaderLines L (h :: hs) (l :: ls)

/-- The line of a header in a request: the value is stripped. -/
def RequestHeaderLine (h : Header) (l : Str) : Prop :=
  ∃ n v, ShownName h.name n ∧ Strips isWs h.value v ∧ l = n ++ ": ".toList ++ v

/-- The line of a header in a response. -/
def ResponseHeaderLine (h : Header) (l : Str) : Prop := l = h.name ++ ": ".toList ++ h.value

/-- There is a Max-Forwards header. -/
def HasMaxForwards (hs : List Header) : Prop := ∃ h ∈ hs, SameName h.name "Max-Forwards".toList

/-- `extra` is `x` if there is no Max-Forwards, and nothing otherwise. -/
def Added {α : Type} (hs : List Header) (x : α) (extra : List α) : Prop :=
  (HasMaxForwards hs ∧ extra = []) ∨ (¬ HasMaxForwards hs ∧ extra = [x])

/-- The lines of a request. -/
def RequestLines (r : Siphon.Request) (ls : List Str) : Prop :=
  ∃ hl extra, HeaderLines RequestHeaderLine r.headers.inner hl ∧ Added r.headers.inner "Max-Forwards: 70".toList extra ∧
    ls = (r.method.asStr ++ " ".toList ++ r.uri ++ " SIP/2.0".toList) ::
      (hl ++ extra ++ ["Content-Length: ".toList ++ showNat r.body.length])

/-- The lines of a response. -/
def ResponseLines (r : Siphon.Response) (ls : List Str) : Prop :=
  ∃ hl, HeaderLines ResponseHeaderLine r.headers.inner hl ∧
    ls = ("SIP/2.0 ".toList ++ showNat r.code ++ " ".toList ++ r.reason) ::
      (hl ++ ["Content-Length: ".toList ++ showNat r.body.length])

/-! ## What is read -/

/-- The headers that are not a Content-Length, in order, with the names `S` gives and with stripped values. -/
inductive Rewritten (S : Str → Str → Prop) : List Header → List Header → Prop
  | nil : Rewritten S [] []
  | skip {h hs hs'} : LengthName h.name → Rewritten S hs hs' → Rewritten S (h :: hs) hs'
  | keep {h n v hs hs'} : ¬ LengthName h.name → S h.name n → Strips isWs h.value v → Rewritten S hs hs' →
      Rewritten S (h :: hs) (⟨n, v⟩ :: hs')

/-- The name after writing and reading: compact names become long ones. -/
def ReadName (n n' : Str) : Prop := ∃ m, ShownName n m ∧ FullName m n'

/-- The request `r'` is `r` as it comes back: the same method, URI and body, the same headers in order with long names
and stripped values, a Max-Forwards of 70 if there was none, and one Content-Length, the last header. -/
def NormalRequest (r r' : Siphon.Request) : Prop :=
  r'.method = r.method ∧ r'.uri = r.uri ∧ r'.body = r.body ∧
    ∃ hs extra, Rewritten ReadName r.headers.inner hs ∧ Added r.headers.inner ⟨"Max-Forwards".toList, "70".toList⟩ extra ∧
      r'.headers.inner = hs ++ extra ++ [⟨"Content-Length".toList, showNat r.body.length⟩]

/-- The response `r'` is `r` as it comes back: the same code and body, the reason stripped, the same headers in order
with long names and stripped values, and one Content-Length, the last header. -/
def NormalResponse (r r' : Siphon.Response) : Prop :=
  r'.code = r.code ∧ Strips isWs r.reason r'.reason ∧ r'.body = r.body ∧
    ∃ hs, Rewritten FullName r.headers.inner hs ∧
      r'.headers.inner = hs ++ [⟨"Content-Length".toList, showNat r.body.length⟩]

end Siphon.Parse.Spec
