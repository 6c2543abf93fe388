import Verif.Core.Uri
import Verif.Core.Ipv6Spec
import Verif.Core.HeadersSpec
import Verif.Base.TextSpec
/-!
# What the text of a URI says: specification of C130

Which texts are SIP and tel URIs for this code and what each part of the text stands for, described without the functions that read
them (only the records `SipUri` and `TelUri` are used).
-/
namespace Siphon.UriText
open Siphon.TextSpec Siphon.HdrSpec

/-- Control characters (C0, DEL, C1). -/
def Control (c : Char) : Prop := c.toNat < 32 ∨ (127 ≤ c.toNat ∧ c.toNat ≤ 159)

/-- ASCII letters and digits. -/
def Alnum (c : Char) : Prop :=
  (65 ≤ c.toNat ∧ c.toNat ≤ 90) ∨ (97 ≤ c.toNat ∧ c.toNat ≤ 122) ∨ (48 ≤ c.toNat ∧ c.toNat ≤ 57)

/-! ## Percent signs -/

/-- The value of a hexadecimal digit. -/
def HexVal (b : UInt8) (x : Nat) : Prop :=
  (48 ≤ b.toNat ∧ b.toNat ≤ 57 ∧ b.toNat = x + 48) ∨ (65 ≤ b.toNat ∧ b.toNat ≤ 70 ∧ b.toNat = x + 55) ∨
    (97 ≤ b.toNat ∧ b.toNat ≤ 102 ∧ b.toNat = x + 87)

/-- Replacing each percent sign (37) with two hexadecimal digits by the byte they spell. -/
inductive Unescaped : Bytes → Bytes → Prop
  | nil : Unescaped [] []
  | esc {b c t r x y} : HexVal b x → HexVal c y → Unescaped t r →
      Unescaped (37 :: b :: c :: t) (UInt8.ofNat (x * 16 + y) :: r)
  | keep {a t r} : (∀ b c t' x y, a :: t = 37 :: b :: c :: t' → HexVal b x → ¬ HexVal c y) → Unescaped t r →
      Unescaped (a :: t) (a :: r)

/-- The same for texts: the bytes that come out are the UTF-8 bytes of `t`. -/
def Unescapes (s t : Str) : Prop := Unescaped (utf8 s) (utf8 t)

/-! ## Lists of parameters -/

/-- The entries a list of pieces stands for, in order; `P p none` says that the piece `p` is skipped. -/
inductive Collects {V : Type} (P : Str → Option (Str × V) → Prop) : List Str → List (Str × V) → Prop
  | nil : Collects P [] []
  | skip {p ps es} : P p none → Collects P ps es → Collects P (p :: ps) es
  | take {p e ps es} : P p (some e) → Collects P ps es → Collects P (p :: ps) (e :: es)

/-- The table of these entries: in the order of the names, the last entry of a name counts. -/
def Holds {V : Type} (es m : List (Str × V)) : Prop :=
  m.Pairwise (fun a b => a.1 < b.1) ∧ ∀ k y, (k, y) ∈ m ↔ ∃ a b, es = a ++ (k, y) :: b ∧ ∀ e ∈ b, e.1 ≠ k

/-- The pieces `ps` give the table `m`, and before each piece there are fewer than `max` names. -/
def Table {V : Type} (P : Str → Option (Str × V) → Prop) (max : Nat) (ps : List Str) (m : List (Str × V)) : Prop :=
  ∃ es, Collects P ps es ∧ Holds es m ∧
    ∀ qs r rs, ps = qs ++ r :: rs → ∃ es' m', Collects P qs es' ∧ Holds es' m' ∧ m'.length < max

/-- A name. -/
def Name (n : Str) : Prop := n ≠ [] ∧ utf8Len n ≤ 64 ∧ ∀ c ∈ n, Alnum c ∨ c ∈ "-.!%*_+`'~".toList

/-- `;name`, `;name=value` or nothing between two semicolons. -/
inductive ParamPiece : Str → Option (Str × Option Str) → Prop
  | blank {p} : Strips isWs p [] → ParamPiece p none
  | flag {p n} : Strips isWs p n → '=' ∉ n → Name n → ParamPiece p (some (n.map Char.toLower, none))
  | pair {p k' v' k v} : Strips isWs p (k' ++ '=' :: v') → '=' ∉ k' → Strips isWs k' k → Strips isWs v' v → Name k →
      utf8Len v ≤ 256 → (∀ c ∈ v, ¬ Control c) → ParamPiece p (some (k.map Char.toLower, some v))

/-- `name=value`; a piece without `=` is skipped. -/
inductive HeaderPiece : Str → Option (Str × Str) → Prop
  | skip {p} : '=' ∉ p → HeaderPiece p none
  | pair {k' v' k v} : '=' ∉ k' → Strips isWs k' k → Strips isWs v' v → Name k → utf8Len v ≤ 512 →
      (∀ c ∈ v, ¬ Control c ∧ isWs c = false) → HeaderPiece (k' ++ '=' :: v') (some (k.map Char.toLower, v))

/-! ## SIP URIs -/

/-- A user part, unescaped. -/
def User (x : Str) : Prop := x ≠ [] ∧ utf8Len x ≤ 256 ∧ ∀ c ∈ x, ¬ Control c ∧ c ∉ "@;?/#[]".toList

/-- A host: a name or IPv4 address, or an IPv6 address. -/
def Host (h : Str) : Prop :=
  h ≠ [] ∧ utf8Len h ≤ 256 ∧ (Ipv6Spec.Ipv6Text h ∨ ∀ c ∈ h, Alnum c ∨ c ∈ "._-".toList)

/-- User part and the text of host and port: what is before the first `@` and what is after it. -/
def Authority (base : Str) (user : Option Str) (hp : Str) : Prop :=
  (∃ a a' b x, Strips isWs base (a ++ '@' :: b) ∧ '@' ∉ a ∧ Strips isWs a a' ∧ Unescapes a' x ∧ User x ∧ user = some x ∧
    Strips isWs b hp) ∨
  (user = none ∧ Strips isWs base hp ∧ '@' ∉ hp)

/-- The text of the host and the port. -/
inductive HostPort : Str → Str → Option Nat → Prop
  | bracketed {h r} : ']' ∉ h → r.head? ≠ some ':' → HostPort ('[' :: (h ++ ']' :: r)) h none
  | bracketedPort {h p n} : ']' ∉ h → Decimal p n → n ≤ 65535 → HostPort ('[' :: (h ++ ']' :: ':' :: p)) h (some n)
  | plain {h} : h.head? ≠ some '[' → ':' ∉ h → HostPort h h none
  | plainPort {h p n} : (h ++ ':' :: p).head? ≠ some '[' → ':' ∉ h → DecDigits p n → n ≤ 65535 → HostPort (h ++ ':' :: p) h (some n)
  | oddPort {h p} : (h ++ ':' :: p).head? ≠ some '[' → ':' ∉ h → ':' ∉ p → (∀ n, ¬ DecDigits p n) →
      HostPort (h ++ ':' :: p) (h ++ ':' :: p) none

/-- The text `t` is the SIP URI `u`. -/
def SipUriText (t : Str) (u : SipUri) : Prop :=
  u.raw = t ∧ (∀ c ∈ t, ¬ Control c) ∧ utf8Len t ≤ 2048 ∧
  ∃ scheme addr query base ps hp host d,
    t = scheme ++ ':' :: (addr ++ query) ∧
    (SameName scheme "sips".toList ∧ u.sips = true ∨ SameName scheme "sip".toList ∧ u.sips = false) ∧
    '?' ∉ addr ∧ Pieces ';' addr (base :: ps) ∧ Table ParamPiece 50 ps u.params ∧
    (query = [] ∧ u.headers = [] ∨ ∃ h hs, query = '?' :: h ∧ Pieces '&' h hs ∧ Table HeaderPiece 50 hs u.headers) ∧
    Authority base u.user hp ∧ hp ≠ [] ∧ HostPort hp host u.port ∧ u.port ≠ some 0 ∧
    Unescapes host d ∧ u.host = d.map Char.toLower ∧ Host u.host

/-! ## tel URIs -/

/-- A decimal digit. -/
def Digit (c : Char) : Prop := 48 ≤ c.toNat ∧ c.toNat ≤ 57

/-- A telephone number: with a plus sign, digits and visual separators; otherwise also `*`, `#` and the letters A to D. -/
def Number (n : Str) : Prop :=
  utf8Len n ≤ 64 ∧ (∃ c ∈ n, Digit c) ∧
  ((∃ t, n = '+' :: t ∧ ∀ c ∈ t, Digit c ∨ c ∈ "-. ()".toList) ∨ ∀ c ∈ n, Digit c ∨ c ∈ "-. ()*#ABCDabcd".toList)

/-- A label of a domain name. -/
def Label (l : Str) : Prop :=
  l ≠ [] ∧ utf8Len l ≤ 63 ∧ l.head? ≠ some '-' ∧ l.getLast? ≠ some '-' ∧ ∀ c ∈ l, Alnum c ∨ c = '-'

/-- The context of a local number: a global number or a domain name. -/
def Context (x : Str) : Prop :=
  utf8Len x ≤ 256 ∧
  ((∃ t, x = '+' :: t ∧ (∃ c ∈ t, Digit c) ∧ ∀ c ∈ t, Digit c ∨ c ∈ "-.()ABCD*#".toList) ∨
    ∃ ls, Pieces '.' (x.map Char.toLower) ls ∧ ∀ l ∈ ls, Label l)

/-- The name of a parameter of a tel URI. -/
def TelName (n : Str) : Prop := n ≠ [] ∧ utf8Len n ≤ 32 ∧ ∀ c ∈ n, ¬ Control c ∧ isWs c = false ∧ c ≠ ';' ∧ c ≠ '='

/-- `;name`, `;name=value` or nothing between two semicolons; the case of a name matters. -/
inductive TelPiece : Str → Option (Str × Option Str) → Prop
  | blank : TelPiece [] none
  | flag {n} : TelName n → TelPiece n (some (n, none))
  | pair {k v} : TelName k → utf8Len v ≤ 128 → (∀ c ∈ v, ¬ Control c ∧ isWs c = false) →
      (SameName k "phone-context".toList → Context v) → TelPiece (k ++ '=' :: v) (some (k, some v))

/-- The last value given for `phone-context` in any case, if there is one. -/
def LastContext (es : List (Str × Option Str)) : Option Str → Prop
  | some x => ∃ a k b, es = a ++ (k, some x) :: b ∧ SameName k "phone-context".toList ∧
      ∀ e ∈ b, e.2 ≠ none → ¬ SameName e.1 "phone-context".toList
  | none => ∀ e ∈ es, e.2 ≠ none → ¬ SameName e.1 "phone-context".toList

/-- The text `t` is the tel URI `u`. -/
def TelUriText (t : Str) (u : TelUri) : Prop :=
  u.raw = t ∧ ∃ rest base ps num es,
    t = "tel:".toList ++ rest ∧ Pieces ';' rest (base :: ps) ∧ Strips isWs base num ∧ Number num ∧
    Table TelPiece 20 ps u.parameters ∧ Collects TelPiece ps es ∧ LastContext es u.phoneContext ∧
    (num.head? = some '+' ∧ u.isGlobal = true ∧ u.phoneContext = none ∧ u.number = num.filter (fun c => c ∉ "-. ()".toList) ∨
     num.head? ≠ some '+' ∧ u.isGlobal = false ∧ u.phoneContext ≠ none ∧ u.number = num)

/-! ## Any URI -/

/-- A scheme, a colon and something after it, without white space around. -/
def AbsoluteText (t s : Str) : Prop :=
  utf8Len t ≤ 2048 ∧ Strips isWs t s ∧ ∃ c scheme rest, s = c :: (scheme ++ ':' :: rest) ∧
    ((65 ≤ c.toNat ∧ c.toNat ≤ 90) ∨ (97 ≤ c.toNat ∧ c.toNat ≤ 122)) ∧
    (∀ c ∈ scheme, Alnum c ∨ c ∈ "+-.".toList) ∧ rest ≠ []

/-- The text `t` is the URI `x`: the scheme, in lower case, decides. -/
def UriText (t : Str) (x : Uri) : Prop :=
  (∀ c ∈ t, ¬ Control c) ∧
  match x with
  | .tel u => TelUriText t u
  | .sip u => ("sip:".toList <+: t ∨ "sips:".toList <+: t) ∧ SipUriText t u
  | .absolute s => ¬ "tel:".toList <+: t ∧ ¬ "sip:".toList <+: t ∧ ¬ "sips:".toList <+: t ∧ AbsoluteText t s

end Siphon.UriText
