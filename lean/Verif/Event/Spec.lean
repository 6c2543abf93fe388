import Verif.Event.Model
import Verif.Base.TextSpec
import Verif.Core.HeadersSpec
/-!
# What Event and Subscription-State say (RFC 6665, 8.2)

Nothing here uses the functions that read these headers.
-/
namespace Siphon.EventHdr.Spec
open TextSpec HdrSpec

/-- A token of RFC 3261 of at most `max` bytes. -/
def Good (max : Nat) (s : Str) : Prop := (Token s ∧ '^' ∉ s ∧ '|' ∉ s) ∧ utf8Len s ≤ max

/-- What a part of a value says: a name, or a name and a value, which may be in quotes. -/
inductive Says : Str → Str × Option Str → Prop
  | flag {t} : '=' ∉ t → Says t (t, none)
  | value {n v w u} : '=' ∉ n → Strips isWs v w → Strips (· == '"') w u → Says (n ++ '=' :: v) (n, some u)

/-- What the parts say, without those that are blank. -/
inductive Items : List Str → List (Str × Option Str) → Prop
  | nil : Items [] []
  | blank {p ps xs} : Strips isWs p [] → Items ps xs → Items (p :: ps) xs
  | item {p t x ps xs} : Strips isWs p t → t ≠ [] → Says t x → Items ps xs → Items (p :: ps) (x :: xs)

/-- The one that is the id, if there is one, and the others. -/
inductive IdAndRest : List (Str × Option Str) → Option Str → List (Str × Option Str) → Prop
  | nil : IdAndRest [] none []
  | id {n i xs rest} : SameName n "id".toList → IdAndRest xs none rest → IdAndRest ((n, some i) :: xs) (some i) rest
  | other {x xs i rest} : ¬ SameName x.1 "id".toList → IdAndRest xs i rest → IdAndRest (x :: xs) i (x :: rest)

/-- `m` has these parameters, under their names in small letters and in the order of these; no name comes twice, and they are at most
twenty. -/
def Table (xs m : List (Str × Option Str)) : Prop :=
  (∀ x ∈ xs, Good 64 x.1 ∧ ∀ v, x.2 = some v → Good 256 v) ∧ xs.length ≤ 20 ∧ (xs.map (fun x => lower x.1)).Nodup ∧
  m.Pairwise (fun a b => a.1 < b.1) ∧ ∀ y, y ∈ m ↔ ∃ x ∈ xs, y = (lower x.1, x.2)

/-- The state a text stands for. -/
inductive Stands : Str → State → Prop
  | active {s} : SameName s "active".toList → Stands s .active
  | pending {s} : SameName s "pending".toList → Stands s .pending
  | terminated {s} : SameName s "terminated".toList → Stands s .terminated
  | other {s} : (∀ k ∈ ["active", "pending", "terminated"], ¬ SameName s k.toList) → Good 32 s → Stands s (.unknown s)

end Siphon.EventHdr.Spec
