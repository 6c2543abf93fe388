import Verif.Identity.Model
import Verif.Base.TextSpec
/-!
# What caller identity should be (C108 to C110)

The grammar of JSON (RFC 8259), base64url (RFC 4648, section 5), the Identity header (RFC 8224), the fields of a PASSporT
(RFC 8225), and DER integers (X.690), as relations.  They use the data types of the model and none of its functions.
-/
namespace Siphon.Ident.Spec
open TextSpec (DecDigits Pieces Strips)

/-! ## base64url -/

/-- `c` is the letter for the six bits `n`. -/
inductive Letter : Char → Nat → Prop
  | upper {n : Nat} : n < 26 → Letter (Char.ofNat (65 + n)) n
  | small {n : Nat} : n < 26 → Letter (Char.ofNat (97 + n)) (26 + n)
  | digit {n : Nat} : n < 10 → Letter (Char.ofNat (48 + n)) (52 + n)
  | minus : Letter '-' 62
  | under : Letter '_' 63

/-- The text is the base64url form of the bytes: three bytes are four letters, as one number; two bytes three letters and one byte
two letters, filled up with zero bits. -/
inductive Base64 : Str → Bytes → Prop
  | nil : Base64 [] []
  | three {w x y z : Char} {p q r s : Nat} {a b c : UInt8} {t : Str} {bs : Bytes} : Letter w p → Letter x q → Letter y r →
      Letter z s → ((p * 64 + q) * 64 + r) * 64 + s = (a.toNat * 256 + b.toNat) * 256 + c.toNat → Base64 t bs →
      Base64 (w :: x :: y :: z :: t) (a :: b :: c :: bs)
  | two {w x y : Char} {p q r : Nat} {a b : UInt8} : Letter w p → Letter x q → Letter y r →
      (p * 64 + q) * 64 + r = (a.toNat * 256 + b.toNat) * 4 → Base64 [w, x, y] [a, b]
  | one {w x : Char} {p q : Nat} {a : UInt8} : Letter w p → Letter x q → p * 64 + q = a.toNat * 16 → Base64 [w, x] [a]

/-! ## JSON -/

/-- White space. -/
def Ws (s : Str) : Prop := ∀ c ∈ s, c = ' ' ∨ c = '\t' ∨ c = '\n' ∨ c = '\r'

def Digit (c : Char) : Prop := 48 ≤ c.toNat ∧ c.toNat ≤ 57

/-- Nothing, or a point and digits. -/
def Fraction (s : Str) : Prop := s = [] ∨ ∃ ds, s = '.' :: ds ∧ ds ≠ [] ∧ ∀ c ∈ ds, Digit c

/-- Nothing, or an `e`, a sign and digits. -/
def Exponent (s : Str) : Prop :=
  s = [] ∨ ∃ e sign ds, s = e :: sign ++ ds ∧ (e = 'e' ∨ e = 'E') ∧ (sign = [] ∨ sign = ['+'] ∨ sign = ['-']) ∧ ds ≠ [] ∧
    ∀ c ∈ ds, Digit c

/-- A number: an integer is one without fraction and exponent; minus zero counts as no integer. -/
inductive Number : Str → Json → Prop
  | int {ds : Str} {n : Nat} : DecDigits ds n → (ds.head? = some '0' → ds = ['0']) → Number ds (.int n)
  | neg {ds : Str} {n : Nat} : DecDigits ds n → 0 < n → (ds.head? = some '0' → ds = ['0']) → Number ('-' :: ds) (.int (-n))
  | negZero : Number ['-', '0'] .float
  | float {sign ds fr ex : Str} {n : Nat} : (sign = [] ∨ sign = ['-']) → DecDigits ds n → (ds.head? = some '0' → ds = ['0']) →
      Fraction fr → Exponent ex → fr ≠ [] ∨ ex ≠ [] → Number (sign ++ ds ++ fr ++ ex) .float

/-- A hexadecimal digit. -/
inductive Hex : Char → Nat → Prop
  | digit {n : Nat} : n < 10 → Hex (Char.ofNat (48 + n)) n
  | small {n : Nat} : n < 6 → Hex (Char.ofNat (97 + n)) (10 + n)
  | upper {n : Nat} : n < 6 → Hex (Char.ofNat (65 + n)) (10 + n)

/-- The characters after a backslash that stand for one byte. -/
inductive Escape : Char → Nat → Prop
  | quote : Escape '"' 34
  | backslash : Escape '\\' 92
  | slash : Escape '/' 47
  | backspace : Escape 'b' 8
  | formfeed : Escape 'f' 12
  | newline : Escape 'n' 10
  | return_ : Escape 'r' 13
  | tab : Escape 't' 9

/-- The inside of a text between quotes, as bytes and codes. -/
inductive Inside : Str → List Item → Prop
  | nil : Inside [] []
  | plain {c : Char} {t us} : c ≠ '"' → c ≠ '\\' → 32 ≤ c.toNat → Inside t us → Inside (c :: t) (.byte c.toNat :: us)
  | escape {e : Char} {b t us} : Escape e b → Inside t us → Inside ('\\' :: e :: t) (.byte b :: us)
  | code {a b c d : Char} {w x y z : Nat} {t us} : Hex a w → Hex b x → Hex c y → Hex d z → Inside t us →
      Inside ('\\' :: 'u' :: a :: b :: c :: d :: t) (.code (w * 4096 + x * 256 + y * 16 + z) :: us)

/-- The bytes that bytes and codes spell: a code is the UTF-8 form of its character, two surrogates are one character. -/
inductive Spells : List Item → Bytes → Prop
  | nil : Spells [] []
  | byte {b us bs} : Spells us bs → Spells (.byte b :: us) (UInt8.ofNat b :: bs)
  | char {c : Char} {us bs} : c.toNat < 65536 → Spells us bs → Spells (.code c.toNat :: us) (utf8 [c] ++ bs)
  | pair {c : Char} {hi lo us bs} : 0xD800 ≤ hi → hi < 0xDC00 → 0xDC00 ≤ lo → lo < 0xE000 →
      c.toNat = 0x10000 + (hi - 0xD800) * 1024 + (lo - 0xDC00) → Spells us bs →
      Spells (.code hi :: .code lo :: us) (utf8 [c] ++ bs)

/-- The text that a string means: none if it means no Unicode text. -/
def Means (us : List Item) : Option Str → Prop
  | some s => Spells us (utf8 s)
  | none => ∀ s, ¬ Spells us (utf8 s)

mutual

/-- A JSON value. -/
inductive Value : Str → Json → Prop
  | null : Value "null".toList .null
  | true_ : Value "true".toList (.bool true)
  | false_ : Value "false".toList (.bool false)
  | number {t v} : Number t v → Value t v
  | string {t us s} : Inside t us → Means us s → Value ('"' :: t ++ ['"']) (.str s)
  | noElems {w} : Ws w → Value ('[' :: w ++ [']']) (.arr [])
  | array {w t vs} : Ws w → Elems t vs → Value ('[' :: w ++ t ++ [']']) (.arr vs)
  | noMembers {w} : Ws w → Value ('{' :: w ++ ['}']) (.obj [])
  | object {w t ms} : Ws w → Members t ms → Value ('{' :: w ++ t ++ ['}']) (.obj ms)

/-- Values with commas between them, and white space after each. -/
inductive Elems : Str → List Json → Prop
  | one {t v w} : Value t v → Ws w → Elems (t ++ w) [v]
  | more {t v w w' t' vs} : Value t v → Ws w → Ws w' → Elems t' vs → Elems (t ++ w ++ ',' :: w' ++ t') (v :: vs)

/-- Names and values with commas between them. -/
inductive Members : Str → List (Option Str × Json) → Prop
  | one {k us s w w' t v w''} : Inside k us → Means us s → Ws w → Ws w' → Value t v → Ws w'' →
      Members ('"' :: k ++ '"' :: w ++ ':' :: w' ++ t ++ w'') [(s, v)]
  | more {k us s w w' t v w'' w''' t' ms} : Inside k us → Means us s → Ws w → Ws w' → Value t v → Ws w'' → Ws w''' →
      Members t' ms → Members ('"' :: k ++ '"' :: w ++ ':' :: w' ++ t ++ w'' ++ ',' :: w''' ++ t') ((s, v) :: ms)

end

/-- The bytes are a JSON text with the given value. -/
def JsonText (bs : Bytes) (v : Json) : Prop :=
  ∃ w t w', Ws w ∧ Value t v ∧ Ws w' ∧ bs.map (fun b => Char.ofNat b.toNat) = w ++ t ++ w'

/-! ## The fields -/

/-- What an object says about a name: its value if the name occurs once, nothing if it does not occur. -/
def Says (kvs : List (Option Str × Json)) (n : Str) : Option Json → Prop
  | some v => ∃ a b, kvs = a ++ (some n, v) :: b ∧ (∀ p ∈ a ++ b, p.1 ≠ some n)
  | none => ∀ p ∈ kvs, p.1 ≠ some n

/-- The fields of a record with the given names: an object whose names are all texts, or an array by position. -/
inductive Fields (names : List String) : Json → List (Option Json) → Prop
  | object {kvs vs} : (∀ p ∈ kvs, ∃ s, p.1 = some s) → vs.length = names.length →
      (∀ (i : Nat) (n : String) (v : Option Json), names[i]? = some n → vs[i]? = some v → Says kvs n.toList v) → Fields names (.obj kvs) vs
  | array {xs : List Json} {k : Nat} : xs.length + k = names.length →
      Fields names (.arr xs) (xs.map some ++ List.replicate k none)

/-- An optional text: absent, null, or a text. -/
inductive OptText : Option Json → Option Str → Prop
  | absent : OptText none none
  | null : OptText (some .null) none
  | text {s : Str} : OptText (some (.str (some s))) (some s)

/-- An optional integer of 64 bits. -/
inductive OptInt : Option Json → Option Int → Prop
  | absent : OptInt none none
  | null : OptInt (some .null) none
  | int {n : Int} : -(2 : Int) ^ 63 ≤ n → n < (2 : Int) ^ 63 → OptInt (some (.int n)) (some n)

/-- The originating number: the text under `tn` in a record of its own. -/
inductive OrigOf : Option Json → Option Str → Prop
  | absent : OrigOf none none
  | null : OrigOf (some .null) none
  | given {j v s} : Fields ["tn"] j [v] → OptText v s → OrigOf (some j) s

/-- The destinations: the texts under `tn`. -/
inductive DestOf : Option Json → List Str → Prop
  | absent : DestOf none []
  | null : DestOf (some .null) []
  | noTn {j} : Fields ["tn"] j [none] → DestOf (some j) []
  | nullTn {j} : Fields ["tn"] j [some .null] → DestOf (some j) []
  | given {j} {l : List Str} : Fields ["tn"] j [some (.arr (l.map (fun s => .str (some s))))] → DestOf (some j) l

/-- The attestation. -/
inductive AttestOf : Option Str → Option Attest → Prop
  | absent : AttestOf none none
  | a : AttestOf (some "A".toList) (some .A)
  | b : AttestOf (some "B".toList) (some .B)
  | c : AttestOf (some "C".toList) (some .C)

/-- What a JSON value says as the header of a PASSporT. -/
def HeaderOf (j : Json) (h : PHeader) : Prop :=
  ∃ typ ppt, Fields ["alg", "typ", "ppt", "x5u"] j [some (.str (some h.alg)), typ, ppt, some (.str (some h.x5u))] ∧
    OptText typ h.typ ∧ OptText ppt h.ppt

/-- What a JSON value says as the claims of a PASSporT. -/
def ClaimsOf (j : Json) (c : Claims) : Prop :=
  ∃ attest orig dest iat origid a, Fields ["attest", "orig", "dest", "iat", "origid"] j [attest, orig, dest, iat, origid] ∧
    OptText attest a ∧ AttestOf a c.attest ∧ OrigOf orig c.origTn ∧ DestOf dest c.destTns ∧ OptInt iat c.iat ∧
    OptText origid c.origid

/-- The token is the PASSporT: three pieces in base64url, the first two being JSON texts, which as they stand are what is
signed. -/
def IsToken (t : Str) (p : Passport) : Prop :=
  ∃ h c s hj cj jh jc, t = h ++ '.' :: c ++ '.' :: s ∧ Base64 h hj ∧ Base64 c cj ∧ Base64 s p.signature ∧
    JsonText hj jh ∧ JsonText cj jc ∧ HeaderOf jh p.header ∧ ClaimsOf jc p.claims ∧ p.signingInput = utf8 (h ++ '.' :: c)

/-! ## The Identity header -/

/-- The text between two characters. -/
def Between (a b : Char) (s t : Str) : Prop := s = a :: t ++ [b]

/-- A text in quotes means the text inside, another one itself. -/
def Unquoted (s t : Str) : Prop := Between '"' '"' s t ∨ (s = t ∧ ∀ u, ¬ Between '"' '"' s u)

/-- A piece is a parameter with the given name (in any case) and value. -/
def IsParam (piece : Str) (name : String) (v : Str) : Prop :=
  ∃ k w n, piece = k ++ '=' :: w ∧ '=' ∉ k ∧ Strips isWs k n ∧ lower n = name.toList ∧ Strips isWs w v

/-- The value of the last parameter with the name, if there is one. -/
def LastParam (pieces : List Str) (name : String) : Option Str → Prop
  | some v => ∃ a p b, pieces = a ++ p :: b ∧ IsParam p name v ∧ ∀ q ∈ b, ∀ w, ¬ IsParam q name w
  | none => ∀ q ∈ pieces, ∀ w, ¬ IsParam q name w

/-- The URI in angle brackets. -/
def Bracketed (v u : Str) : Prop := ∃ w, Between '<' '>' v w ∧ Strips isWs w u

/-- The optional value `r` is what `R` makes of the optional value `v`. -/
def Mapped (R : Str → Str → Prop) : Option Str → Option Str → Prop
  | none, none => True
  | some v, some u => R v u
  | _, _ => False

/-- The value of an Identity header and what it says: at most 8192 bytes, a token and parameters with semicolons between them,
every `info` in angle brackets. -/
def IsHeader (value : Str) (h : IdHeader) : Prop :=
  (utf8 value).length ≤ 8192 ∧
  ∃ first rest, Pieces ';' value (first :: rest) ∧ Strips isWs first h.rawToken ∧ IsToken h.rawToken h.passport ∧
    (∀ p ∈ rest, ∀ v, IsParam p "info" v → ∃ u, Bracketed v u) ∧
    (∃ v, LastParam rest "info" v ∧ Mapped Bracketed v h.info) ∧
    (∃ v, LastParam rest "alg" v ∧ Mapped Unquoted v h.alg) ∧
    (∃ v, LastParam rest "ppt" v ∧ Mapped Unquoted v h.ppt)

/-! ## Signatures -/

/-- The number that bytes spell, the first byte being the highest. -/
inductive BigEndian : Bytes → Nat → Prop
  | nil : BigEndian [] 0
  | snoc {bs n b} : BigEndian bs n → BigEndian (bs ++ [b]) (n * 256 + UInt8.toNat b)

/-- The DER form of a number that is not negative: tag 2, the length, and the shortest bytes that spell it and do not begin
with a bit 1. -/
def DerInteger (d : Bytes) (n : Nat) : Prop :=
  ∃ b bs, d = 2 :: UInt8.ofNat (bs.length + 1) :: b :: bs ∧ bs.length + 1 < 128 ∧ BigEndian (b :: bs) n ∧ b.toNat < 128 ∧
    (b = 0 → ∀ c, bs.head? = some c → 128 ≤ c.toNat)

/-- The DER form of a sequence of two numbers. -/
def DerPair (d : Bytes) (r s : Nat) : Prop :=
  ∃ x y, DerInteger x r ∧ DerInteger y s ∧ d = 0x30 :: UInt8.ofNat (x ++ y).length :: (x ++ y) ∧ (x ++ y).length < 128

end Siphon.Ident.Spec
