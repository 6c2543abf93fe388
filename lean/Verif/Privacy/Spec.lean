import Verif.Privacy.Model
import Verif.Core.HeadersSpec
import Verif.Base.TextSpec
import Verif.Base.Utf8
/-!
# What privacy means (C111, C112)
-/
namespace Siphon.Priv.Spec
open HdrSpec TextSpec

/-- The word for a value. -/
inductive Word : Str → PValue → Prop
  | none : Word "none".toList .none
  | header : Word "header".toList .header
  | session : Word "session".toList .session
  | user : Word "user".toList .user
  | id : Word "id".toList .id
  | critical : Word "critical".toList .critical

/-- A piece between semicolons says a value: its word in any case, with white space around it. -/
def Says (piece : Str) (v : PValue) : Prop := ∃ w w', Strips isWs piece w ∧ SameName w w' ∧ Word w' v

/-- Nothing but white space. -/
def Blank (piece : Str) : Prop := ∀ c ∈ piece, isWs c = true

/-- Pieces and the values they say, blank ones apart. -/
inductive AllSay : List Str → List PValue → Prop
  | nil : AllSay [] []
  | blank {p ps vs} : Blank p → AllSay ps vs → AllSay (p :: ps) vs
  | say {p ps v vs} : Says p v → AllSay ps vs → AllSay (p :: ps) (v :: vs)

/-- A Privacy header has one to ten values, and `none` only alone. -/
def Proper (vs : List PValue) : Prop := vs ≠ [] ∧ vs.length ≤ 10 ∧ (.none ∈ vs → vs = [.none])

/-- The text of a Privacy header. -/
def IsPrivacy (s : Str) (vs : List PValue) : Prop := (utf8 s).length ≤ 256 ∧ Proper vs ∧ ∃ ps, Pieces ';' s ps ∧ AllSay ps vs

/-! ## Where the parameters of a name-addr begin -/

/-- The inside of a quoted text. -/
inductive Quoted : Str → Prop
  | nil : Quoted []
  | char {c t} : c ≠ '"' → c ≠ '\\' → Quoted t → Quoted (c :: t)
  | escape {c t} : Quoted t → Quoted ('\\' :: c :: t)

/-- The inside of angle brackets. -/
inductive Angled : Str → Prop
  | nil : Angled []
  | char {c t} : c ≠ '"' → c ≠ '>' → Angled t → Angled (c :: t)
  | quoted {q t} : Quoted q → Angled t → Angled ('"' :: q ++ '"' :: t)

/-- A text with its quotes and angle brackets closed and without semicolons outside of them. -/
inductive Address : Str → Prop
  | nil : Address []
  | char {c t} : c ≠ '"' → c ≠ '<' → c ≠ ';' → Address t → Address (c :: t)
  | quoted {q t} : Quoted q → Address t → Address ('"' :: q ++ '"' :: t)
  | angled {b t} : Angled b → Address t → Address ('<' :: b ++ '>' :: t)

/-- The parameters of a header value: from the first semicolon outside quotes and brackets, with that; nothing if there is none. -/
def Params (v p : Str) : Prop :=
  (∃ a t, Address a ∧ v = a ++ ';' :: t ∧ p = ';' :: t) ∨ (p = [] ∧ ∀ a t, Address a → v ≠ a ++ ';' :: t)

/-! ## Who can see what -/

/-- The names of headers that are hidden. -/
inductive Hidden (vs : List PValue) : Str → Prop
  | header {n : Str} {m : String} : (.header ∈ vs ∨ .user ∈ vs) →
      m ∈ ["Subject", "Call-Info", "Organization", "User-Agent", "Reply-To", "In-Reply-To", "Server"] → SameName n m.toList → Hidden vs n
  | identity {n : Str} {m : String} : (.id ∈ vs ∨ .user ∈ vs) →
      m ∈ ["From", "Contact", "P-Asserted-Identity", "P-Preferred-Identity"] → SameName n m.toList → Hidden vs n

/-- `kept` are the headers that are not hidden, in their order. -/
inductive Kept (vs : List PValue) : List Header → List Header → Prop
  | nil : Kept vs [] []
  | keep {h l k} : ¬ Hidden vs h.name → Kept vs l k → Kept vs (h :: l) (h :: k)
  | drop {h l k} : Hidden vs h.name → Kept vs l k → Kept vs (h :: l) k

/-- What becomes of the first header with a name: one that names nobody, with the parameters. -/
inductive Masked (l : List Header) (name : String) : List Header → Prop
  | absent : Selects name.toList l [] → Masked l name []
  | present {v p more} : Selects name.toList l (v :: more) → Params v p →
      Masked l name [⟨name.toList, "\"Anonymous\" <sip:anonymous@anonymous.invalid>".toList ++ p⟩]

end Siphon.Priv.Spec
