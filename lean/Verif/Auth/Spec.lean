import Verif.Auth.Client
import Verif.Core.HeadersSpec
import Verif.Base.TextSpec
/-!
# Specification vocabulary for digest authentication

Nothing here calls the functions of the model; only its data types (`Request`, `Headers`, `Hash`,
`Algorithm`, `Qop`, `Op`) are used.
-/
namespace Siphon.Auth.Spec

/-! ## What the text of a credentials header says -/

/-- Where a reader of quoted strings stands. -/
inductive Q | outside | inside | escaped
  deriving DecidableEq

def Q.next : Q → Char → Q
  | .outside, c => if c = '"' then .inside else .outside
  | .inside, c => if c = '"' then .outside else if c = '\\' then .escaped else .inside
  | .escaped, _ => .inside

def quoteState (s : Str) : Q := s.foldl Q.next .outside

/-- An element of a comma-separated list: its quotes are closed and it has no comma outside them. -/
def Element (p : Str) : Prop :=
  quoteState p = .outside ∧ ∀ a b, p = a ++ ',' :: b → quoteState a ≠ .outside

export TextSpec (Strips)

/-- An element `name = value` or `name = "value"`: `name` in lower case, `value` without the
surrounding white space and quotes. -/
def Says (p name value : Str) : Prop :=
  ∃ n v n' v', p = n ++ '=' :: v ∧ '=' ∉ n ∧ Strips isWs n n' ∧ name = n'.map Char.toLower ∧
    Strips isWs v v' ∧ Strips (· == '"') v' value

def joinCommas : List Str → Str
  | [] => []
  | [p] => p
  | p :: ps => p ++ ',' :: joinCommas ps

/-- The header value `raw` is `scheme` followed by a comma-separated list in which exactly one element
is about `name`, and that one says `value`. -/
def Carries (raw scheme name value : Str) : Prop :=
  ∃ t first ps, Strips isWs raw t ∧ t = first ++ ' ' :: joinCommas ps ∧ ' ' ∉ first ∧
    Strips isWs first scheme ∧ (∀ p ∈ ps, Element p) ∧
    ∃ before p after, ps = before ++ p :: after ∧ Says p name value ∧
      ∀ q ∈ before ++ after, ∀ v, ¬ Says q name v

/-- A hexadecimal digit of either case and its value. -/
inductive HexDigit : Char → Nat → Prop
  | dec {c : Char} : 48 ≤ c.toNat → c.toNat ≤ 57 → HexDigit c (c.toNat - 48)
  | low {c : Char} : 97 ≤ c.toNat → c.toNat ≤ 102 → HexDigit c (c.toNat - 87)
  | upp {c : Char} : 65 ≤ c.toNat → c.toNat ≤ 70 → HexDigit c (c.toNat - 55)

/-- A non-empty string of hexadecimal digits and its value. -/
inductive HexDigits : Str → Nat → Prop
  | one {c d} : HexDigit c d → HexDigits [c] d
  | snoc {s n c d} : HexDigits s n → HexDigit c d → HexDigits (s ++ [c]) (n * 16 + d)

/-- Hexadecimal digits, possibly after a `+`. -/
def HexNumber (t : Str) (n : Nat) : Prop := HexDigits t n ∨ ∃ r, t = '+' :: r ∧ HexDigits r n

/-- Name of the header in which credentials are sent. -/
def credentialsName (proxy : Bool) : Str :=
  if proxy then "Proxy-Authorization".toList else "Authorization".toList

/-- The first credentials header of `hs` is a Digest one and carries `name` with `value`. -/
def Presents (proxy : Bool) (hs : Headers) (name : String) (value : Str) : Prop :=
  ∃ raw more scheme, HdrSpec.Selects (credentialsName proxy) hs.inner (raw :: more) ∧
    HdrSpec.SameName scheme "Digest".toList ∧ Carries raw scheme name.toList value

/-- Text that needs no escaping inside a quoted string, of at most `max` bytes. -/
def Plain (max : Nat) (s : Str) : Prop :=
  utf8Len s ≤ max ∧ ∀ c ∈ s, c ≠ '"' ∧ c ≠ '\\' ∧ isControl c = false

/-! ## RFC 7616 -/

/-- RFC 7616 6.1: names in the registry. -/
def algorithmName : Algorithm → Str
  | .md5 => "MD5".toList
  | .md5Sess => "MD5-sess".toList
  | .sha256 => "SHA-256".toList
  | .sha256Sess => "SHA-256-sess".toList
  | .sha512 => "SHA-512".toList
  | .sha512Sess => "SHA-512-sess".toList
  | .sha512_256 => "SHA-512-256".toList
  | .sha512_256Sess => "SHA-512-256-sess".toList

def colons : List Str → Str
  | [] => []
  | [s] => s
  | s :: r => s ++ ':' :: colons r

/-- RFC 7616 3.2: the hash function named by the `algorithm` parameter. -/
def hashOf : Algorithm → HashFn
  | .md5 => .md5 | .md5Sess => .md5
  | .sha256 => .sha256 | .sha256Sess => .sha256
  | .sha512 => .sha512 | .sha512Sess => .sha512
  | .sha512_256 => .sha512_256 | .sha512_256Sess => .sha512_256

def session : Algorithm → Prop
  | .md5Sess => True | .sha256Sess => True | .sha512Sess => True | .sha512_256Sess => True
  | .md5 => False | .sha256 => False | .sha512 => False | .sha512_256 => False

instance : DecidablePred session := fun a => by cases a <;> unfold session <;> infer_instance

def qopName : Qop → Str
  | .auth => "auth".toList
  | .authInt => "auth-int".toList

/-- RFC 7616 3.4.2: H(A1). -/
def hashA1 (H : Hash) (alg : Algorithm) (user realm pw nonce cnonce : Str) : Str :=
  let h := fun s => H (hashOf alg) (utf8 s)
  if session alg then h (colons [h (colons [user, realm, pw]), nonce, cnonce])
  else h (colons [user, realm, pw])

/-- RFC 7616 3.4.3: H(A2), for a request (`method` non-empty) or a response (`method` empty, 3.5). -/
def hashA2 (H : Hash) (alg : Algorithm) (qop : Qop) (method uri : Str) (body : Bytes) : Str :=
  let h := fun s => H (hashOf alg) (utf8 s)
  match qop with
  | .auth => h (colons [method, uri])
  | .authInt => h (colons [method, uri, H (hashOf alg) body])

/-- RFC 7616 3.4.1: the response value. -/
def digest (H : Hash) (alg : Algorithm) (qop : Qop) (user realm pw nonce nc cnonce method uri : Str)
    (body : Bytes) : Str :=
  H (hashOf alg) (utf8 (colons [hashA1 H alg user realm pw nonce cnonce, nonce, nc, cnonce,
    qopName qop, hashA2 H alg qop method uri body]))

/-! ## Histories -/

/-- Nonces issued by a history, with the time of issue. -/
def issued : List Op → List (Str × Nat)
  | [] => []
  | .challenge _ _ n _ t :: ops => (n, t) :: issued ops
  | .generate n t :: ops => (n, t) :: issued ops
  | _ :: ops => issued ops

/-- When `nonce` was issued last. -/
def lastIssue (ops : List Op) (nonce : Str) : Option Nat :=
  (((issued ops).filter (fun p => p.1 = nonce)).getLast?).map (·.2)

/-- Two requests that read the same when written as `METHOD:URI:body`. -/
def SameText (a b : Request) : Prop :=
  utf8 (a.method.asStr ++ ':' :: a.uri) ++ 58 :: a.body
    = utf8 (b.method.asStr ++ ':' :: b.uri) ++ 58 :: b.body

def Collision (H : Hash) (f : HashFn) : Prop := ∃ x y, x ≠ y ∧ H f x = H f y

end Siphon.Auth.Spec
