import Verif.Base.TextSpec
import Verif.Core.HeadersSpec
/-!
# What a Via header value says

RFC 3261 20.42 and 25.1, described without the functions of the model that read it.
-/
namespace Siphon.ViaSpec
open TextSpec HdrSpec

/-- A letter, a digit, `.`, `-` or `_`. -/
def HostChar (c : Char) : Prop :=
  (65 ≤ c.toNat ∧ c.toNat ≤ 90) ∨ (97 ≤ c.toNat ∧ c.toNat ≤ 122) ∨ (48 ≤ c.toNat ∧ c.toNat ≤ 57) ∨
  c ∈ (".-_".toList)

/-- A hexadecimal digit, `:` or `.`. -/
def V6Char (c : Char) : Prop :=
  (48 ≤ c.toNat ∧ c.toNat ≤ 57) ∨ (97 ≤ c.toNat ∧ c.toNat ≤ 102) ∨ (65 ≤ c.toNat ∧ c.toNat ≤ 70) ∨
  c ∈ (":.".toList)

/-- Decimal digits of a port number. -/
def PortText (p : Str) : Prop := ∃ n, DecDigits p n ∧ 1 ≤ n ∧ n ≤ 65535

/-- `SentBy s h`: the sent-by text `s` names the host `h`. -/
inductive SentBy : Str → Str → Prop
  | name {h} : h ≠ [] → (∀ c ∈ h, HostChar c) → SentBy h h
  | namePort {h p} : h ≠ [] → (∀ c ∈ h, HostChar c) → PortText p → SentBy (h ++ ':' :: p) h
  | v6 {a} : a ≠ [] → (∀ c ∈ a, V6Char c) → SentBy ('[' :: a ++ [']']) a
  | v6Port {a p} : a ≠ [] → (∀ c ∈ a, V6Char c) → PortText p → SentBy ('[' :: a ++ ']' :: ':' :: p) a

/-- The token characters this code accepts in a Via: those of RFC 3261 25.1. -/
def TokChar (c : Char) : Prop :=
  (65 ≤ c.toNat ∧ c.toNat ≤ 90) ∨ (97 ≤ c.toNat ∧ c.toNat ≤ 122) ∨ (48 ≤ c.toNat ∧ c.toNat ≤ 57) ∨
  c ∈ ("-.!%*_+`'~".toList)

/-- A token of at most `max` bytes. -/
def Tok (max : Nat) (s : Str) : Prop := s ≠ [] ∧ (∀ c ∈ s, TokChar c) ∧ utf8Len s ≤ max

/-- A control character (Unicode `Cc`). -/
def Control (c : Char) : Prop := c.toNat < 32 ∨ (127 ≤ c.toNat ∧ c.toNat ≤ 159)

/-- A parameter value: at most 256 bytes, no control character. -/
def Value (v : Str) : Prop := utf8Len v ≤ 256 ∧ ∀ c ∈ v, ¬ Control c

/-- `Param p n x`: the text `p` between semicolons is the parameter `n`, without a value (`x = none`) or
with the value `x`. -/
inductive Param : Str → Str → Option Str → Prop
  | flag {p n} : Strips isWs p n → '=' ∉ n → Tok 64 n → Param p n none
  | value {p k r n v} : Strips isWs p (k ++ '=' :: r) → '=' ∉ k → Strips isWs k n → Strips isWs r v →
      Tok 64 n → Value v → Param p n (some v)

/-- `Params ps es`: the texts `ps` carry the parameters `es`, all with different names.  Texts of white
space only count for nothing.  After the twentieth parameter nothing may follow. -/
inductive Params : List Str → List (Str × Option Str) → Prop
  | nil : Params [] []
  | blank {ps es p} : Params ps es → es.length < 20 → (∀ c ∈ p, isWs c = true) → Params (ps ++ [p]) es
  | param {ps es p n x} : Params ps es → es.length < 20 → Param p n x → (∀ e ∈ es, ¬ SameName e.1 n) →
      Params (ps ++ [p]) (es ++ [(n, x)])

/-- `ViaText s tr sb es`: the header value `s` says that the message was sent over `tr` by `sb` with the
parameters `es`. -/
def ViaText (s tr sb : Str) (es : List (Str × Option Str)) : Prop :=
  (∀ c ∈ s, Control c → c = '\t') ∧
  ∃ t first parts proto scheme,
    Strips (fun c => c == ' ' || c == '\t') s t ∧ Pieces ';' t (first :: parts) ∧
    Words first [proto, sb] ∧ Pieces '/' proto [scheme, "2.0".toList, tr] ∧ SameName scheme "SIP".toList ∧
    Tok 32 tr ∧ (∃ h, SentBy sb h) ∧ utf8Len sb ≤ 256 ∧ Params parts es

/-- `Says es n x`: among the parameters `es`, the one named `n` (letter case aside) has the value `x`. -/
def Says (es : List (Str × Option Str)) (n : Str) (x : Option Str) : Prop := ∃ m, (m, x) ∈ es ∧ SameName m n

end Siphon.ViaSpec
