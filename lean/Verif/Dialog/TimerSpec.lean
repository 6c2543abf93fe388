import Verif.Dialog.Timer
import Verif.Dialog.Spec
/-!
# What the properties of session-timer negotiation are about
-/
namespace Siphon.Dlg.Spec
open TextSpec HdrSpec

/-- The piece is a `refresher=` parameter with the value `r`. -/
def RefresherParam (p r : Str) : Prop := Strips isWs p ("refresher=".toList ++ r)

/-- The word names a role, in any case, with space around it. -/
inductive RoleText : Str → Option Role → Prop
  | uac {r w} : Strips isWs r w → SameName w "uac".toList → RoleText r (some .uac)
  | uas {r w} : Strips isWs r w → SameName w "uas".toList → RoleText r (some .uas)
  | neither {r w} : Strips isWs r w → ¬ SameName w "uac".toList → ¬ SameName w "uas".toList → RoleText r none

/-- The refresher given by the parameters: that of the last `refresher=`. -/
inductive RefresherIn : List Str → Option Role → Prop
  | absent {ps} : (∀ p ∈ ps, ∀ r, ¬ RefresherParam p r) → RefresherIn ps none
  | last {pre p post r role} : RefresherParam p r → (∀ q ∈ post, ∀ r, ¬ RefresherParam q r) → RoleText r role →
      RefresherIn (pre ++ p :: post) role

/-- A Session-Expires value: an interval in the range the library accepts, and parameters. -/
def SEText (v : Str) (n : Nat) (role : Option Role) : Prop :=
  (∀ c ∈ v, isControl c = false) ∧ ∃ t p ps q, Strips isWs v t ∧ Pieces ';' t (p :: ps) ∧ Strips isWs p q ∧ Decimal q n ∧
    90 ≤ n ∧ n ≤ 86400 ∧ RefresherIn ps role

/-- A Min-SE value in the range the library accepts. -/
def MinSEText (v : Str) (n : Nat) : Prop :=
  (∀ c ∈ v, isControl c = false) ∧ ∃ q, Strips isWs v q ∧ Decimal q n ∧ 90 ≤ n ∧ n ≤ 7200

/-- The request asks for the interval `n` and names the refresher `role`, or nobody. -/
def Asks (hs : Headers) (n : Nat) (role : Option Role) : Prop := ∃ v, First hs "Session-Expires" v ∧ SEText v n role

/-- `m` is an acceptable interval for the side with this Min-SE header. -/
def MeetsMin (hs : Headers) (m : Nat) : Prop := ∀ v n, First hs "Min-SE" v → MinSEText v n → n ≤ m

end Siphon.Dlg.Spec
