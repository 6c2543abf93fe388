import Verif.Base.Text
/-!
# Specification vocabulary for text

Decimal numbers, words and lists of pieces, described without the functions that read them.
-/
namespace Siphon.TextSpec

/-- A non-empty string of decimal digits and its value. -/
inductive DecDigits : Str → Nat → Prop
  | one {c : Char} : 48 ≤ c.toNat → c.toNat ≤ 57 → DecDigits [c] (c.toNat - 48)
  | snoc {s : Str} {n : Nat} {c : Char} : DecDigits s n → 48 ≤ c.toNat → c.toNat ≤ 57 →
      DecDigits (s ++ [c]) (n * 10 + (c.toNat - 48))

/-- Decimal digits, possibly after a `+`. -/
def Decimal (t : Str) (n : Nat) : Prop := DecDigits t n ∨ ∃ r, t = '+' :: r ∧ DecDigits r n

/-- The pieces of a text, with the separator `c` between them. -/
def join (c : Char) : List Str → Str
  | [] => []
  | [p] => p
  | p :: ps => p ++ c :: join c ps

/-- `ps` are the pieces of `s` between the separators `c`. -/
def Pieces (c : Char) (s : Str) (ps : List Str) : Prop := ps ≠ [] ∧ s = join c ps ∧ ∀ p ∈ ps, c ∉ p

/-- `ws` are the words of `s`: its maximal runs of characters that are not white space. -/
inductive Words : Str → List Str → Prop
  | nil {s} : (∀ c ∈ s, isWs c = true) → Words s []
  | cons {lead w rest ws} : (∀ c ∈ lead, isWs c = true) → w ≠ [] → (∀ c ∈ w, isWs c = false) →
      (∀ c, rest.head? = some c → isWs c = true) → Words rest ws → Words (lead ++ (w ++ rest)) (w :: ws)

/-- `t` is `s` without its leading and trailing characters satisfying `P`. -/
def Strips (P : Char → Bool) (s t : Str) : Prop :=
  ∃ a b, s = a ++ t ++ b ∧ (∀ c ∈ a, P c = true) ∧ (∀ c ∈ b, P c = true) ∧
    (∀ c, t.head? = some c → P c = false) ∧ (∀ c, t.getLast? = some c → P c = false)

end Siphon.TextSpec
