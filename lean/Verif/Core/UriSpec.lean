import Verif.Core.Uri
/-!
# Modifying a URI: specification of C69
-/
namespace Siphon

/-- One call of a builder method of `SipUri` (uri.rs 476-552). -/
inductive UriEdit
  | host (h : Str)
  | noPort
  | user (x : Str)
  | port (p : Nat)
  | noHeaders
  | param (name : Str) (value : Option Str)

/-- The effect of the call; `none` is `Err`. -/
def SipUri.edit (u : SipUri) : UriEdit → Option SipUri
  | .host h => u.withHost h
  | .noPort => some u.withoutPort
  | .user x => u.withUser x
  | .port p => u.withPort p
  | .noHeaders => some u.withoutUriHeaders
  | .param n v => u.withParam n v

/-- Several calls, each of which must succeed. -/
def SipUri.edits (u : SipUri) : List UriEdit → Option SipUri
  | [] => some u
  | e :: es => (u.edit e).bind (fun v => v.edits es)

namespace UriSpec

/-- A user part that is written as it is meant: no percent sign, no white space at the ends. -/
def PlainUser (x : Str) : Prop := Trimmed x ∧ '%' ∉ x

/-- Arguments that are themselves written as they are meant: hosts in lower case, users without percent
signs, parameter values without the characters that end a value; ports are 16 bit numbers. -/
def Plain : UriEdit → Prop
  | .host h => ∀ c ∈ h, ¬ (65 ≤ c.toNat ∧ c.toNat ≤ 90)
  | .user x => PlainUser x
  | .port p => p ≤ 65535
  | .param _ (some v) => Trimmed v ∧ ';' ∉ v ∧ '?' ∉ v
  | _ => True

/-- What each call is documented to do: the component it names changes, nothing else does.  The parameter
table has one entry per name, whatever the case of the name. -/
def Effect (u : SipUri) (e : UriEdit) (v : SipUri) : Prop :=
  v.sips = u.sips ∧
  v.user = (match e with | .user x => some x | _ => u.user) ∧
  v.host = (match e with | .host h => h | _ => u.host) ∧
  v.port = (match e with | .port p => some p | .noPort => none | _ => u.port) ∧
  (match e with
    | .noHeaders => v.headers = []
    | _ => v.headers = u.headers) ∧
  (match e with
    | .param n x => ∀ k y, (k, y) ∈ v.params ↔ (k = lower n ∧ y = x) ∨ (k ≠ lower n ∧ (k, y) ∈ u.params)
    | _ => v.params = u.params)

end UriSpec
end Siphon
