import Verif.Uas.Response
import Verif.Dialog.UacSpec
/-!
# What the properties of responses are about
-/
namespace Siphon.Uas.Spec
open TextSpec HdrSpec Dlg.Spec

/-- All values of the header `n` of the request are in the response, in order, and no others. -/
def AllCopied (rq rs : Headers) (n : String) : Prop := ∀ vs, Selects n.toList rs.inner vs ↔ Selects n.toList rq.inner vs

/-- The response has the header `n` once, with the first value the request has, or not at all if the request has none. -/
def Copied (rq rs : Headers) (n : String) : Prop :=
  (∀ v, First rq n v → Selects n.toList rs.inner [v]) ∧ (Absent rq n → Absent rs n)

/-- RFC 3261 8.2.6.2 for the headers that are only copied. -/
structure Belongs (rq rs : Headers) : Prop where
  via : AllCopied rq rs "Via"
  recordRoute : AllCopied rq rs "Record-Route"
  «from» : Copied rq rs "From"
  callId : Copied rq rs "Call-ID"

/-- The text `s` contains the text `n`. -/
def Contains (s n : Str) : Prop := ∃ a b, s = a ++ n ++ b

/-- The To value `v'` of the response for the To value `v` of the request: a value with a tag is kept, and any other
gets the tag `tag`. -/
structure Tagged (v tag v' : Str) : Prop where
  kept : Contains v ";tag=".toList → v' = v
  added : ¬ Contains v ";tag=".toList → v' = v ++ ";tag=".toList ++ tag
  /-- so a tag that can be read in the request is the one read in the response -/
  same : ∀ t, TagOf v t → TagOf v' t
  /-- and without one the new tag is read -/
  new : NoTag v → TagText tag → TagOf v' tag

/-- The headers an answer carries besides those every response has. -/
def further (contact : SipUri) : Answer → List (String × Str)
  | .plain _ _ | .terminated => []
  | .ok b => ("Contact", '<' :: contact.raw ++ ">".toList) :: sdp b
  | .timed b v => ("Contact", '<' :: contact.raw ++ ">".toList) :: sdp b ++ [("Session-Expires", v), ("Require", "timer".toList)]
  | .publish none => []
  | .publish (some e) => [("SIP-ETag", e)]
  | .options => [("Allow", "INVITE, ACK, BYE, CANCEL, OPTIONS".toList), ("Accept", "application/sdp".toList)]
  | .tooSmall n => [("Min-SE", showNat n)]
  | .refer => [("Contact", '<' :: contact.raw ++ ">".toList)]
  | .reliable _ _ n _ b =>
    ("RSeq", showNat n) :: ("Require", "100rel".toList) :: ("Contact", '<' :: contact.raw ++ ">".toList) :: sdp b
where
  sdp : Option Str → List (String × Str)
    | none => []
    | some _ => [("Content-Type", "application/sdp".toList)]

/-- The body of an answer. -/
def bodyOf : Answer → Option Str
  | .ok b | .timed b _ | .reliable _ _ _ _ b => b
  | _ => none

/-- The bytes of an optional body. -/
def bytes : Option Str → Bytes
  | none => []
  | some b => utf8 b

/-- The names every response may have. -/
def usual : List String := ["Via", "From", "Call-ID", "CSeq", "To", "Record-Route", "Content-Length"]

end Siphon.Uas.Spec
