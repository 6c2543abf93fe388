import Verif.Frag.Model
import Verif.Base.TextSpec
import Verif.Core.HeadersSpec
/-!
# What a fragment is (RFC 3420)

Nothing here uses the functions that check or write fragments.
-/
namespace Siphon.Frag.Spec
open TextSpec HdrSpec

/-- The headers describe a body of `n` bytes: there is a Content-Type, and the first Content-Length is this number. -/
def Describe (hs : List Header) (n : Nat) : Prop :=
  (∃ h ∈ hs, SameName h.name "Content-Type".toList) ∧
  ∃ pre h post d, hs = pre ++ h :: post ∧ SameName h.name "Content-Length".toList ∧
    (∀ x ∈ pre, ¬ SameName x.name "Content-Length".toList) ∧ Strips isWs h.value d ∧ Decimal d n

/-- A fragment is sound: a body it has is not too large, and its headers describe it. -/
def Sound (f : Frag) : Prop := f.body ≠ [] → f.body.length ≤ 65536 ∧ Describe f.headers.inner f.body.length

/-- A call that changes a fragment. -/
inductive Call
  | header (n v : Str)
  | body (b : Bytes)

/-- Its effect; a call that is refused changes nothing. -/
def Call.run (f : Frag) : Call → Frag
  | .header n v => (f.addHeader n v).getD f
  | .body b => (f.setBody b).getD f

/-- How a fragment comes into being. -/
inductive Begins : Frag → Prop
  | empty : Begins Frag.empty
  | status {c r f} : Frag.statusOnly c r = some f → Begins f
  | response {r f} : Frag.fromResponse r = some f → Begins f
  | start (s) : Begins (Frag.ofStart s)
  | headers (hs) : Begins (Frag.headersOnly hs)

/-- The lines of a fragment. -/
def lines (f : Frag) : List Str :=
  (match f.start with
   | some (.request m u) => [m.asStr ++ " ".toList ++ u ++ " SIP/2.0".toList]
   | some (.response c r) => ["SIP/2.0 ".toList ++ showNat c ++ " ".toList ++ r]
   | none => []) ++ f.headers.inner.map (fun h => h.name ++ ": ".toList ++ h.value)

end Siphon.Frag.Spec
