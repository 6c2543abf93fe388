import Verif.Daemon.Spec
import Verif.Sub.ReferSpec
import Verif.Auth.Spec
/-!
# What C121 is about: INVITEs with Replaces (RFC 3891)
-/
namespace Siphon.Daemon.Spec
open HdrSpec TextSpec
open Siphon.Dlg.Spec
open Siphon.Dlg (Dialog DialogId)

/-- The last of the parameters that begins with `name` has the value `v`. -/
def LastParam (name : String) (ps : List Str) (v : Str) : Prop :=
  ∃ a p b x, ps = a ++ p :: b ∧ Strips isWs p (name.toList ++ x) ∧ Strips isWs x v ∧ ∀ q ∈ b, ∀ y, ¬ Strips isWs q (name.toList ++ y)

/-- The dialog that the value of a Replaces header names: Call-ID, to-tag (the local tag) and from-tag (the remote tag), none of them
empty; other parameters mean nothing. -/
def ReplacesOf (v : Str) (i : DialogId) : Prop :=
  ∃ c ps, Pieces ';' v (c :: ps) ∧ Strips isWs c i.callId ∧ i.callId ≠ [] ∧ LastParam "to-tag=" ps i.localTag ∧ i.localTag ≠ [] ∧
    LastParam "from-tag=" ps i.remoteTag ∧ i.remoteTag ≠ []

/-- The user with whose credentials a request comes. -/
def AuthUser (hs : Headers) (u : Str) : Prop :=
  Auth.Spec.Presents false hs "username" u ∨ Absent hs "Authorization" ∧ Auth.Spec.Presents true hs "username" u

/-- The user in the From header. -/
def FromUser (hs : Headers) (u : Str) : Prop := ∃ v t, First hs "From" v ∧ Sub.Spec.Target v t ∧ t.user = some u

/-- Who sends the request: with authentication the user of the credentials, without it the user of the From header. -/
def Sender (c : Cfg) (hs : Headers) (u : Str) : Prop := (c.auth = true ∧ AuthUser hs u) ∨ (c.auth = false ∧ FromUser hs u)

/-- The user is one of the two in the dialog, after normalisation and in any case. -/
def Party (c : Cfg) (d : Dialog) (u : Str) : Prop :=
  ∃ w, (d.localUri.user = some w ∨ d.remoteUri.user = some w) ∧ SameName (c.nfc w) (c.nfc u)

end Siphon.Daemon.Spec
