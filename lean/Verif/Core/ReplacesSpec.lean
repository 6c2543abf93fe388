import Verif.Core.Replaces
import Verif.Base.TextSpec
import Verif.Core.HeadersSpec
/-!
# What a Replaces header text says (RFC 3891)

Nothing here uses the functions that read or write the header.
-/
namespace Siphon.Replaces.Spec
open TextSpec HdrSpec

/-- A Call-ID (at most 256 bytes) or a tag (at most 128 bytes) the header accepts: not empty and without control
characters. -/
def Ident (max : Nat) (s : Str) : Prop :=
  s ≠ [] ∧ utf8Len s ≤ max ∧ ∀ c ∈ s, 32 ≤ c.toNat ∧ c.toNat ≠ 127

/-- What one parameter says. -/
inductive Says
  | early
  | toTag (v : Str)
  | fromTag (v : Str)

/-- The parameter `name = value`; blanks around the name and the value do not count, and the name is read without regard to
case. -/
def Param (p : Str) (name : String) (v : Str) : Prop :=
  ∃ k w n, p = k ++ '=' :: w ∧ '=' ∉ k ∧ Strips isWs k n ∧ SameName n name.toList ∧ Strips isWs w v ∧ Ident 128 v

/-- What the text between two semicolons says. -/
inductive Piece : Str → Says → Prop
  | early {s p} : Strips isWs s p → SameName p "early-only".toList → Piece s .early
  | toTag {s p v} : Strips isWs s p → Param p "to-tag" v → Piece s (.toTag v)
  | fromTag {s p v} : Strips isWs s p → Param p "from-tag" v → Piece s (.fromTag v)

/-- What a list of parameters says, one after the other. -/
inductive Pieces' : List Str → List Says → Prop
  | nil : Pieces' [] []
  | cons {s x ss xs} : Piece s x → Pieces' ss xs → Pieces' (s :: ss) (x :: xs)

/-- The to-tags among what is said. -/
def toTags : List Says → List Str
  | [] => []
  | .toTag v :: l => v :: toTags l
  | _ :: l => toTags l

/-- The from-tags among what is said. -/
def fromTags : List Says → List Str
  | [] => []
  | .fromTag v :: l => v :: fromTags l
  | _ :: l => fromTags l

/-- The text `s` (at most 1024 bytes) is a Replaces header for the dialog `h`: a Call-ID, then parameters separated by
semicolons, of which exactly one is the to-tag, exactly one the from-tag, and any other is `early-only`. -/
def Reads (s : Str) (h : Header) : Prop :=
  utf8Len s ≤ 1024 ∧ ∃ t c ps xs, Strips isWs s t ∧ Pieces ';' t (c :: ps) ∧ Strips isWs c h.callId ∧
    Ident 256 h.callId ∧ Pieces' ps xs ∧ toTags xs = [h.toTag] ∧ fromTags xs = [h.fromTag] ∧
    (h.earlyOnly = true ↔ Says.early ∈ xs)

/-- A text that can stand between semicolons: it has none of them and no blank at its ends. -/
def Plain (s : Str) : Prop := ';' ∉ s ∧ Trimmed s

end Siphon.Replaces.Spec
