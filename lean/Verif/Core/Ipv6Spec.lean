import Verif.Base.Num
/-!
# The text of an IPv6 address (RFC 4291 section 2.2)
-/
namespace Siphon.Ipv6Spec

/-- A hexadecimal digit. -/
def Hex (c : Char) : Prop := c ∈ "0123456789abcdefABCDEF".toList

/-- One of the eight pieces: one to four hexadecimal digits. -/
def Piece (g : Str) : Prop := g ≠ [] ∧ g.length ≤ 4 ∧ ∀ c ∈ g, Hex c

/-- An IPv4 address: four numbers up to 255 without leading zeros. -/
def DottedQuad (h : Str) : Prop :=
  ∃ a b c d, a ≤ 255 ∧ b ≤ 255 ∧ c ≤ 255 ∧ d ≤ 255 ∧
    h = showNat a ++ '.' :: (showNat b ++ '.' :: (showNat c ++ '.' :: showNat d))

/-- Pieces separated by colons that stand for `n` groups of 16 bits.  The last may be an IPv4 address, which stands for two: then the
flag is set. -/
inductive Pieces : Bool → Str → Nat → Prop
  | one {g} : Piece g → Pieces false g 1
  | quad {q} : DottedQuad q → Pieces true q 2
  | cons {b g s n} : Piece g → Pieces b s n → Pieces b (g ++ ':' :: s) (n + 1)

/-- What may stand beside a double colon. -/
def Side (b : Bool) (s : Str) (n : Nat) : Prop := s = [] ∧ n = 0 ∧ b = false ∨ Pieces b s n

/-- Eight groups, or fewer with a double colon in the place of the missing ones. -/
def Ipv6Text (s : Str) : Prop :=
  (∃ b, Pieces b s 8) ∨ ∃ u v b n m, s = u ++ ':' :: ':' :: v ∧ Side false u n ∧ Side b v m ∧ n + m ≤ 7

end Siphon.Ipv6Spec
