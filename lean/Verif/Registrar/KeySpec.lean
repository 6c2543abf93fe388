import Verif.Core.Uri
/-!
# When two URIs name the same address-of-record: specification of C70
-/
namespace Siphon.Registrar.KeySpec

/-- The parts of a SIP URI that name an account (RFC 3261 10.3 step 5: parameters and headers do not
count). -/
def SameAddress (u v : SipUri) : Prop := u.sips = v.sips ∧ u.user = v.user ∧ u.host = v.host ∧ u.port = v.port

/-- RFC 3966: the visual separators do not count. -/
def dialled (n : Str) : Str := n.filter (fun c => !['-', '.', ' ', '(', ')'].contains c)

/-- RFC 3966: a context that is a number is compared as a number, one that is a domain without case. -/
def context (u : TelUri) : Option Str := match u.phoneContext with
  | none => none
  | some ('+' :: t) => some ('+' :: dialled t)
  | some c => some (lower c)

/-- The other parameters, names in lower case. -/
def others (u : TelUri) : List (Str × Option Str) :=
  (u.parameters.map (fun p => (lower p.1, p.2))).filter (fun p => p.1 ≠ "phone-context".toList)

/-- Two telephone numbers are the same. -/
def SameNumber (u v : TelUri) : Prop :=
  dialled u.number = dialled v.number ∧ context u = context v ∧ (others u).Perm (others v)

/-- No two parameter names differ in case only. -/
def DistinctNames (u : TelUri) : Prop := ((others u).map (·.1)).Nodup

/-- The account a URI names: the user part of a SIP address, the digits of a telephone number. -/
def Names : Uri → Str → Prop
  | .sip u, id => u.user = some id
  | .tel u, id => dialled u.number = id
  | .absolute _, _ => False

end Siphon.Registrar.KeySpec
