import Verif.Date.Model
import Verif.Base.TextSpec
/-!
# What a date is (RFC 3261, 20.17)

Nothing here uses the functions that check a date.
-/
namespace Siphon.DateHdr.Spec
open TextSpec

/-- A number of so many digits. -/
def Digits (len : Nat) (s : Str) (n : Nat) : Prop := utf8Len s = len ∧ DecDigits s n

/-- A day of the week with a comma (or several). -/
def Weekday (a : Str) : Prop :=
  ∃ d k, d ∈ ["Mon", "Tue", "Wed", "Thu", "Fri", "Sat", "Sun"].map String.toList ∧ a = d ++ List.replicate (k + 1) ','

/-- Hours, minutes and seconds. -/
def Time (t : Str) : Prop :=
  ∃ h m s nh nm ns, t = h ++ ':' :: (m ++ ':' :: s) ∧ Digits 2 h nh ∧ Digits 2 m nm ∧ Digits 2 s ns ∧ nh ≤ 23 ∧ nm ≤ 59 ∧ ns ≤ 59

/-- A time zone: two letters at least. -/
def Zone (z : Str) : Prop :=
  2 ≤ utf8Len z ∧ ∀ c ∈ z, (65 ≤ c.toNat ∧ c.toNat ≤ 90) ∨ (97 ≤ c.toNat ∧ c.toNat ≤ 122)

/-- The text is a date, with whatever words after it. -/
def Date (s : Str) : Prop :=
  utf8Len s ≤ 128 ∧ (∀ c ∈ s, isAsciiControl c = false) ∧
  ∃ a d m y t z rest nd ny, Words s (a :: d :: m :: y :: t :: z :: rest) ∧ Weekday a ∧
    Digits 2 d nd ∧ 1 ≤ nd ∧ nd ≤ 31 ∧
    m ∈ ["Jan", "Feb", "Mar", "Apr", "May", "Jun", "Jul", "Aug", "Sep", "Oct", "Nov", "Dec"].map String.toList ∧
    Digits 4 y ny ∧ 1970 ≤ ny ∧ ny ≤ 2100 ∧ Time t ∧ Zone z

end Siphon.DateHdr.Spec
