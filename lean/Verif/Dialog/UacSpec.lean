import Verif.Dialog.Uac
import Verif.Dialog.Spec
/-!
# What the properties of requests inside a dialog are about
-/
namespace Siphon.Dlg.Spec
open TextSpec HdrSpec

/-- A URI between angle brackets. -/
def Bracketed (u : SipUri) : Str := "<".toList ++ u.raw ++ ">".toList

/-- RFC 3261, 12.2.1.1: the Request-URI, the values of the Route headers and the next hop of a request in a
dialog. -/
inductive Routed (d : Dialog) : Str → List Str → SipUri → Prop
  | direct : d.routeSet = [] → Routed d d.remoteTarget.raw [] d.remoteTarget
  | loose {first rest} : d.routeSet = first :: rest → (∃ v, ("lr".toList, v) ∈ first.params) →
      Routed d d.remoteTarget.raw (d.routeSet.map Bracketed) first
  | strict {first rest} : d.routeSet = first :: rest → (∀ v, ("lr".toList, v) ∉ first.params) →
      Routed d first.raw (rest.map Bracketed ++ [Bracketed d.remoteTarget]) first

/-- A text without the characters that separate and delimit addresses. -/
def Plain (s : Str) : Prop := ∀ c ∈ s, c ≠ '<' ∧ c ≠ '>' ∧ c ≠ '"' ∧ c ≠ ','

/-- What may stand before the bracketed address: plain text, possibly with one quoted display name. -/
inductive Lead : Str → Prop
  | plain {a} : Plain a → Lead a
  | quoted {a q b} : Plain a → (∀ c ∈ q, c ≠ '<' ∧ c ≠ '>' ∧ c ≠ '"') → Plain b → Lead (a ++ '"' :: q ++ '"' :: b)

/-- `xs` are the texts between the angle brackets of a comma-separated list of addresses. -/
inductive Addresses : Str → List Str → Prop
  | one {pre x post} : Lead pre → (∀ c ∈ x, c ≠ '<' ∧ c ≠ '>' ∧ c ≠ '"') → Plain post →
      Addresses (pre ++ '<' :: x ++ '>' :: post) [x]
  | more {pre x post rest xs} : Lead pre → (∀ c ∈ x, c ≠ '<' ∧ c ≠ '>' ∧ c ≠ '"') → Plain post →
      Addresses rest xs → Addresses (pre ++ '<' :: x ++ '>' :: post ++ ',' :: rest) (x :: xs)

/-- The bracketed texts of several header values, in order. -/
inductive AllAddresses : List Str → List Str → Prop
  | nil : AllAddresses [] []
  | cons {v vs xs ys} : Addresses v xs → AllAddresses vs ys → AllAddresses (v :: vs) (xs ++ ys)

/-- The texts are the URIs `us`, in order. -/
inductive AreUris : List Str → List SipUri → Prop
  | nil : AreUris [] []
  | cons {x t u xs us} : Strips isWs x t → SipUri.parse t = some u → AreUris xs us → AreUris (x :: xs) (u :: us)

/-- The Record-Route headers of a message list the URIs `us`, from top to bottom. -/
def Recorded (hs : Headers) (us : List SipUri) : Prop :=
  ∃ vs xs, Selects "Record-Route".toList hs.inner vs ∧ AllAddresses vs xs ∧ AreUris xs us

/-- A text that can be a tag: no semicolon, no space at its end. -/
def TagText (t : Str) : Prop := ';' ∉ t ∧ ∀ a c, t = a ++ [c] → isWs c = false

end Siphon.Dlg.Spec
