import Verif.Core.Headers
/-! Specification vocabulary for header collections: independent of the model's functions (only the
data types `Header`, `Str` are used). -/

namespace Siphon.HdrSpec

/-- Two characters are equal up to ASCII letter case. -/
def CharSame (a b : Char) : Prop :=
  a = b ∨ ∃ k : Nat, k < 26 ∧
    ((a.toNat = 65 + k ∧ b.toNat = 97 + k) ∨ (a.toNat = 97 + k ∧ b.toNat = 65 + k))

/-- Header names are compared without regard to ASCII letter case. -/
inductive SameName : Str → Str → Prop
  | nil : SameName [] []
  | cons {a b s t} : CharSame a b → SameName s t → SameName (a :: s) (b :: t)

/-- RFC 3261 `token` (25.1). -/
def TokenChar (c : Char) : Prop :=
  (65 ≤ c.toNat ∧ c.toNat ≤ 90) ∨ (97 ≤ c.toNat ∧ c.toNat ≤ 122) ∨ (48 ≤ c.toNat ∧ c.toNat ≤ 57) ∨
  c ∈ ("-.!%*_+`'~^|".toList)

def Token (s : Str) : Prop := s ≠ [] ∧ ∀ c ∈ s, TokenChar c

/-- No CR, no LF, no NUL. -/
def OneLine (s : Str) : Prop := '\r' ∉ s ∧ '\n' ∉ s ∧ '\x00' ∉ s

/-- What the application may rely on for every stored header. -/
def Clean (h : Header) : Prop := Token h.name ∧ OneLine h.value

/-- `vs` are the values of exactly the headers of `l` named `n`, in order. -/
inductive Selects (n : Str) : List Header → List Str → Prop
  | nil : Selects n [] []
  | take {h l vs} : SameName h.name n → Selects n l vs → Selects n (h :: l) (h.value :: vs)
  | skip {h l vs} : ¬ SameName h.name n → Selects n l vs → Selects n (h :: l) vs

end Siphon.HdrSpec
