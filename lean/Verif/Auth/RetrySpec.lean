import Verif.Core.HeadersSpec
import Verif.Base.TextSpec
import Verif.Auth.Spec
/-!
# What an authenticated retry may change: specification of C68
-/
namespace Siphon.Auth.RetrySpec
open HdrSpec TextSpec Auth.Spec

/-- A `branch=...` parameter, the name in any case. -/
def IsBranch (t : Str) : Prop := ∃ n v, t = n ++ v ∧ SameName n "branch=".toList

/-- The parameters of a Via with the branch replaced and everything else kept, in order, without the
white space around them; the flag tells whether there was a branch. -/
inductive NewParams (branch : Str) : List Str → List Str → Bool → Prop
  | nil : NewParams branch [] [] false
  | branch {p t ps qs f} : Strips isWs p t → IsBranch t → NewParams branch ps qs f →
      NewParams branch (p :: ps) (("branch=".toList ++ branch) :: qs) true
  | blank {p ps qs f} : Strips isWs p [] → NewParams branch ps qs f → NewParams branch (p :: ps) qs f
  | keep {p t ps qs f} : Strips isWs p t → t ≠ [] → ¬ IsBranch t → NewParams branch ps qs f →
      NewParams branch (p :: ps) (t :: qs) f

/-- The Via value with the new branch. -/
def NewBranch (branch via via' : Str) : Prop :=
  ∃ b t ps qs f, Pieces ';' via (b :: ps) ∧ Strips isWs b t ∧ NewParams branch ps qs f ∧
    via' = join ';' (t :: qs ++ (if f then [] else ["branch=".toList ++ branch]))

/-- A CSeq value with a number that is not the last one. -/
def Numbered (v : Str) (n : Nat) (method : Str) : Prop :=
  ∃ num, v = num ++ ' ' :: method ∧ ' ' ∉ num ∧ Decimal num n

/-- The headers of the retry, one for one: every Via gets the new branch, the first numbered CSeq the next
number, all others are kept.  The flag: the CSeq has been dealt with. -/
inductive Carried (branch : Str) : Bool → List Header → List Header → Prop
  | nil {d} : Carried branch d [] []
  | via {d h v l l'} : h.name = "Via".toList → NewBranch branch h.value v → Carried branch d l l' →
      Carried branch d (h :: l) (⟨"Via".toList, v⟩ :: l')
  | cseq {h n m l l'} : h.name = "CSeq".toList → Numbered h.value n m → n < 4294967295 → Carried branch true l l' →
      Carried branch false (h :: l) (⟨"CSeq".toList, showNat (n + 1) ++ ' ' :: m⟩ :: l')
  | unnumbered {h l l'} : h.name = "CSeq".toList → (∀ n m, Numbered h.value n m → 4294967295 < n) →
      Carried branch false l l' → Carried branch false (h :: l) (h :: l')
  | other {d h l l'} : h.name ≠ "Via".toList → (h.name ≠ "CSeq".toList ∨ d = true) → Carried branch d l l' →
      Carried branch d (h :: l) (h :: l')

end Siphon.Auth.RetrySpec
