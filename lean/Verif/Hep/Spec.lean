import Verif.Base.Utf8
import Verif.Base.TextSpec
import Verif.Core.HeadersSpec
/-!
# The Call-ID of a message as bytes

Lines end with LF or CRLF.  Nothing of the model is used here.
-/
namespace Siphon.Hep.Spec
open TextSpec HdrSpec

/-- The line `l` with its end `e`: CRLF, or LF if there is no CR before it. -/
def Line (l e : Bytes) : Prop := (10 : UInt8) ∉ l ∧ (e = [13, 10] ∨ (e = [10] ∧ l.getLast? ≠ some 13))

/-- The bytes say the word, in any case. -/
def Says (n : Bytes) (w : String) : Prop := ∃ s, n = utf8 s ∧ SameName s w.toList

/-- The line is a Call-ID header with this value: `Call-ID` or `i`, a colon at once, and the value. -/
def CallIdLine (l v : Bytes) : Prop := ∃ n, (Says n "Call-ID" ∨ Says n "i") ∧ l = n ++ 58 :: v

/-- Spaces and tabs around the value are not part of it, and neither is a CR at its end. -/
def Stripped (v t : Bytes) : Prop :=
  ∃ a b, v = a ++ t ++ b ∧ (∀ x ∈ a, x = 32 ∨ x = 9) ∧ (∀ x ∈ b, x = 32 ∨ x = 9 ∨ x = 13) ∧
    (∀ x, t.head? = some x → x ≠ 32 ∧ x ≠ 9) ∧ (∀ x, t.getLast? = some x → x ≠ 32 ∧ x ≠ 9 ∧ x ≠ 13)

/-- The header is a Call-ID header. -/
def IsCallId (h : Header) : Prop := SameName h.name "Call-ID".toList ∨ SameName h.name "i".toList

/-- A space or a tab. -/
def blank (c : Char) : Bool := c == ' ' || c == '\t'

end Siphon.Hep.Spec
