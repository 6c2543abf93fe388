import Verif.SecAgree.Model
import Verif.Base.TextSpec
import Verif.Core.HeadersSpec
/-!
# Security agreement: what the headers say and what is agreed (RFC 3329)

Nothing here uses the functions that read the headers or choose a mechanism.
-/
namespace Siphon.SecAgree.Spec
open TextSpec HdrSpec

/-- The parameters of an entry are in the order of their names, without two of the same name. -/
def Ordered (m : List (Str × Option Str)) : Prop := m.Pairwise (fun a b => a.1 < b.1)

/-! ## Preferences -/

/-- The value of the `q` parameter: of `Q` if there is one, otherwise of `q`; `none` when there is no value. -/
inductive QText (e : Entry) : Option Str → Prop
  | upper {x} : (['Q'], x) ∈ e.params → QText e x
  | lower {x} : (∀ y, (['Q'], y) ∉ e.params) → (['q'], x) ∈ e.params → QText e x
  | absent : (∀ y, (['Q'], y) ∉ e.params) → (∀ y, (['q'], y) ∉ e.params) → QText e none

/-- The text is a number from 0 to 1. -/
def QNumber (F : Floats) (t : Str) (q : F32) : Prop := F.read t = some (some q) ∧ 0 ≤ q.val ∧ q.val ≤ 1

/-- The preference of an entry: its `q` if that is a number from 0 to 1, otherwise 0.001. -/
def Pref (F : Floats) (e : Entry) (q : F32) : Prop :=
  ∃ x, QText e x ∧
    ((∃ t, x = some t ∧ QNumber F t q) ∨ ((∀ t, x = some t → ∀ q', ¬ QNumber F t q') ∧ q = ⟨F.rnd (1 / 1000), false⟩))

/-- `c` is the first entry of the client for the mechanism. -/
def FirstFor (m : Mechanism) (client : List Entry) (c : Entry) : Prop :=
  ∃ pre post, client = pre ++ c :: post ∧ c.mech = m ∧ ∀ x ∈ pre, x.mech ≠ m

/-- The combined preference of an entry of the server: the (rounded) product of its preference and that of the first entry
of the client for the mechanism. -/
def Combined (F : Floats) (client : List Entry) (s : Entry) (q : Rat) : Prop :=
  ∃ c qs qc, FirstFor s.mech client c ∧ Pref F s qs ∧ Pref F c qc ∧ q = F.rnd (qs.val * qc.val)

/-- `s` is the first entry of the server with the highest combined preference. -/
def Best (F : Floats) (server client : List Entry) (s : Entry) : Prop :=
  ∃ pre post q, server = pre ++ s :: post ∧ Combined F client s q ∧
    (∀ x ∈ pre, ∀ q', Combined F client x q' → q' < q) ∧ (∀ x ∈ post, ∀ q', Combined F client x q' → q' ≤ q)

/-- `b` is strictly preferred to `a`. -/
def Preferred (F : Floats) (b a : Entry) : Prop :=
  ∃ qb qa, Pref F b qb ∧ Pref F a qa ∧ (qa.val < qb.val ∨ qa.val = qb.val ∧ qa.minus = true ∧ qb.minus = false)

/-! ## Texts -/

/-- Where a reader of quoted strings stands. -/
inductive Quote | outside | inside | escaped
  deriving DecidableEq

def Quote.next : Quote → Char → Quote
  | .outside, c => if c = '"' then .inside else .outside
  | .inside, c => if c = '"' then .outside else if c = '\\' then .escaped else .inside
  | .escaped, _ => .inside

/-- Where the reader stands after a text. -/
def after (s : Str) : Quote := s.foldl Quote.next .outside

/-- The text has no `sep` outside its quoted strings. -/
def Unbroken (sep : Char) (s : Str) : Prop := ∀ a b, s = a ++ sep :: b → after a ≠ .outside

/-- The text up to the first `sep` outside quoted strings. -/
def UpTo (sep : Char) (a : Str) : Prop := Unbroken sep a ∧ after a = .outside

/-- The pieces of a text between the separators outside quoted strings. -/
inductive QPieces (sep : Char) : Str → List Str → Prop
  | last {p} : Unbroken sep p → QPieces sep p [p]
  | more {p rest ps} : UpTo sep p → QPieces sep rest ps → QPieces sep (p ++ sep :: rest) (p :: ps)

/-- A mechanism name. -/
def MechName (s : Str) : Prop := s ≠ [] ∧ utf8Len s ≤ 64 ∧ ∀ c ∈ s, isControl c = false ∧ isWs c = false

/-- A parameter name. -/
def GoodName (s : Str) : Prop :=
  s ≠ [] ∧ utf8Len s ≤ 64 ∧ ∀ c ∈ s, isControl c = false ∧ isWs c = false ∧ c ≠ ';' ∧ c ≠ '=' ∧ c ≠ ','

/-- A parameter value. -/
def GoodValue (s : Str) : Prop := utf8Len s ≤ 256 ∧ ∀ c ∈ s, isControl c = false

/-- The name is the word in any case (the Kelvin sign is a capital `K`). -/
def IsWord (n : Str) (w : String) : Prop := SameName (n.map (fun c => if c = '\u212A' then 'k' else c)) w.toList

/-- The mechanism of a name. -/
inductive Names : Str → Mechanism → Prop
  | tls {n} : MechName n → IsWord n "tls" → Names n .tls
  | digest {n} : MechName n → IsWord n "digest" → Names n .digest
  | ike {n} : MechName n → IsWord n "ipsec-ike" → Names n .ipsecIke
  | man {n} : MechName n → IsWord n "ipsec-man" → Names n .ipsecMan
  | other {n} : MechName n → ¬ IsWord n "tls" → ¬ IsWord n "digest" → ¬ IsWord n "ipsec-ike" → ¬ IsWord n "ipsec-man" →
      Names n (.other n)

/-- What one parameter of an entry says: nothing, or that a name has a value (or is a flag). -/
inductive Item (F : Floats) : Str → Option (Str × Option Str) → Prop
  | blank {s} : Strips isWs s [] → Item F s none
  | flag {s p} : Strips isWs s p → p ≠ [] → Unbroken '=' p → GoodName p → Item F s (some (p, none))
  | value {s k w n v} : Strips isWs s (k ++ '=' :: w) → UpTo '=' k → Strips isWs k n → Strips isWs w v → GoodName n →
      GoodValue v → (SameName n ['q'] → ∃ q, QNumber F v q) → Item F s (some (n, some v))
  | badQ {s k w n v} : Strips isWs s (k ++ '=' :: w) → UpTo '=' k → Strips isWs k n → Strips isWs w v → SameName n ['q'] →
      (∀ q, ¬ QNumber F v q) → Item F s none

/-- What a list of parameters says, in order. -/
inductive Items (F : Floats) : List Str → List (Str × Option Str) → Prop
  | nil : Items F [] []
  | none {s ss l} : Item F s none → Items F ss l → Items F (s :: ss) l
  | some {s x ss l} : Item F s (some x) → Items F ss l → Items F (s :: ss) (x :: l)

/-- At most 19 different names are set. -/
def Room (l : List (Str × Option Str)) : Prop :=
  ∀ ks : List Str, ks.Nodup → (∀ k ∈ ks, ∃ v, (k, v) ∈ l) → ks.length < 20

/-- The last value set for a name. -/
def LastSet (l : List (Str × Option Str)) (k : Str) (v : Option Str) : Prop :=
  ∃ pre post, l = pre ++ (k, v) :: post ∧ ∀ w, (k, w) ∉ post

/-- The text of an entry: a mechanism and its parameters, in which a name set twice has its last value; no parameter may
follow twenty different ones. -/
def EntryText (F : Floats) (s : Str) (e : Entry) : Prop :=
  ∃ m ps n l, QPieces ';' s (m :: ps) ∧ Strips isWs m n ∧ Names n e.mech ∧ Items F ps l ∧
    (∀ pre x post, l = pre ++ x :: post → Room pre) ∧
    Ordered e.params ∧ ∀ k v, (k, v) ∈ e.params ↔ LastSet l k v

/-- The entries of a list of pieces, blank ones left out. -/
inductive Entries (F : Floats) : List Str → List Entry → Prop
  | nil : Entries F [] []
  | blank {s ss es} : Strips isWs s [] → Entries F ss es → Entries F (s :: ss) es
  | entry {s t e ss es} : Strips isWs s t → t ≠ [] → EntryText F t e → Entries F ss es → Entries F (s :: ss) (e :: es)

/-- The text of a header: one to ten entries; after ten entries not even a comma may follow. -/
def HeaderText (F : Floats) (s : Str) (es : List Entry) : Prop :=
  ∃ ps, QPieces ',' s ps ∧ Entries F ps es ∧ es ≠ [] ∧
    ∀ pre p post es', ps = pre ++ p :: post → Entries F pre es' → es'.length < 10

/-- A text that can be written into a header as it is: no separator, no quote. -/
def Bare (s : Str) : Prop := ';' ∉ s ∧ ',' ∉ s ∧ '"' ∉ s

/-- An entry that can be written: a mechanism that is not one of the four known ones has a name that is read as that, there are at most twenty parameters,
with good names and values without separators, quotes and blanks at the ends, and a `q` is a number from 0 to 1. -/
structure Writable (F : Floats) (e : Entry) : Prop where
  mech : ∀ s, e.mech = .other s → Bare s ∧ Names s (.other s)
  ordered : Ordered e.params
  few : e.params.length ≤ 20
  names : ∀ k v, (k, v) ∈ e.params → GoodName k ∧ '"' ∉ k
  values : ∀ k v, (k, some v) ∈ e.params → GoodValue v ∧ Bare v ∧ Trimmed v ∧ (SameName k ['q'] → ∃ q, QNumber F v q)

end Siphon.SecAgree.Spec
