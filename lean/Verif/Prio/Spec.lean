import Verif.Prio.Model
import Verif.Base.TextSpec
import Verif.Core.HeadersSpec
/-!
# What the texts of these headers say (RFC 3261 20.26, RFC 4412, RFC 4488, RFC 3903)

Nothing here uses the functions that read or write the headers.
-/
namespace Siphon.Prio.Spec
open TextSpec HdrSpec

/-- A priority: one of four words in any case, or another token of at most 32 bytes, which is kept in small letters. -/
inductive Says : Str → Priority → Prop
  | emergency {t} : SameName t "emergency".toList → Says t .emergency
  | urgent {t} : SameName t "urgent".toList → Says t .urgent
  | normal {t} : SameName t "normal".toList → Says t .normal
  | nonUrgent {t} : SameName t "non-urgent".toList → Says t .nonUrgent
  | other {t} : (∀ w ∈ ["emergency", "urgent", "normal", "non-urgent"], ¬ SameName t w.toList) → Token t → utf8Len t ≤ 32 →
      Says t (.unknown (t.map Char.toLower))

/-- A name of at most 64 bytes without control characters and white space. -/
def Name (s : Str) : Prop := s ≠ [] ∧ utf8Len s ≤ 64 ∧ ∀ c ∈ s, isAsciiControl c = false ∧ isWs c = false

/-- `namespace.priority`: the first dot separates. -/
inductive One : Str → Value → Prop
  | mk {n p} : '.' ∉ n → Name n → Name p → One (n ++ '.' :: p) ⟨n, p⟩

/-- The values of the pieces; blank pieces say nothing. -/
inductive Values : List Str → List Value → Prop
  | nil : Values [] []
  | blank {s ss vs} : Strips isWs s [] → Values ss vs → Values (s :: ss) vs
  | value {s t v ss vs} : Strips isWs s t → t ≠ [] → One t v → Values ss vs → Values (s :: ss) (v :: vs)

/-- What a Resource-Priority says: at most ten values between commas, in a text of at most 512 bytes. -/
def Reads (t : Str) (vs : List Value) : Prop :=
  utf8Len t ≤ 512 ∧ vs.length ≤ 10 ∧ ∃ ps, Pieces ',' t ps ∧ Values ps vs

/-- A token of RFC 3261. -/
def StrictToken (s : Str) : Prop := Token s ∧ '^' ∉ s ∧ '|' ∉ s

/-- A value that is written as it is meant. -/
def Plain (v : Value) : Prop := Name v.ns ∧ Name v.prio ∧ '.' ∉ v.ns ∧ ',' ∉ v.ns ∧ ',' ∉ v.prio

end Siphon.Prio.Spec
