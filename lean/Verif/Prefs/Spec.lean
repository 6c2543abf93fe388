import Verif.Base.TextSpec
import Verif.Core.HeadersSpec
import Verif.Prefs.Model
/-!
# What the properties of capabilities and caller preferences are about
-/
namespace Siphon.Prefs.Spec
open TextSpec HdrSpec

/-! ## Values -/

/-- A token of RFC 3261 of at most 64 bytes. -/
def GoodToken (t : Str) : Prop := t ≠ [] ∧ utf8Len t ≤ 64 ∧ ∀ c ∈ t, isAlnum c = true ∨ c ∈ "-.!%*_+`'~".toList

/-- A value that may stand in a set of capabilities. -/
inductive Allowed : Value → Prop
  | boolean (b : Bool) : Allowed (.boolean b)
  | token {t : Str} (h : GoodToken t) : Allowed (.token t)
  | list {l : List Str} (h : l.length ≤ 20) (ht : ∀ t ∈ l, GoodToken t) : Allowed (.list l)
  | string {s : Str} (h : utf8Len s ≤ 256) (hc : ∀ c ∈ s, isAsciiControl c = false) (hq : '"' ∉ s) : Allowed (.string s)
  | numeric (n : Rat) : Allowed (.numeric n)

/-- What is offered satisfies what is asked for. -/
inductive Satisfies (F : Floats) : (asked offered : Value) → Prop
  | boolean (b : Bool) : Satisfies F (.boolean b) (.boolean b)
  | token {a b : Str} (h : SameName a b) : Satisfies F (.token a) (.token b)
  | list {a b : List Str} (h : ∀ x ∈ a, ∃ y ∈ b, SameName x y) : Satisfies F (.list a) (.list b)
  | string (s : Str) : Satisfies F (.string s) (.string s)
  | numeric {a b : Rat} (h1 : -(1 / 4503599627370496) < F.rnd (a - b)) (h2 : F.rnd (a - b) < 1 / 4503599627370496) :
      Satisfies F (.numeric a) (.numeric b)

/-- The set has a value for the tag that satisfies what is asked for. -/
def Offers (F : Floats) (f : Feats) (t : Tag) (v : Value) : Prop := ∃ w, f t = some w ∧ Satisfies F v w

/-- The sets of capabilities the API can build. -/
inductive Built : Feats → Prop
  | new : Built .new
  | add {f g : Feats} {t : Tag} {v : Value} (hf : Built f) (h : f.add t v = some g) : Built g

/-- The features of Accept-Contact and Reject-Contact the API can build. -/
inductive BuiltPref : Feats → Prop
  | new : BuiltPref .new
  | add {f g : Feats} {t : Tag} {v : Value} (hf : BuiltPref f) (h : addFeature f t v = some g) : BuiltPref g

/-! ## Parameters -/

/-- The tags with a list of tokens as value. -/
def ListTag (t : Tag) : Prop := t ∈ [.events, .priority, .methods, .schemes, .extensions]

/-- The parameter is the one of this tag. -/
def Names (name : Str) (t : Tag) : Prop :=
  ∃ n, (n, t) ∈ [("audio", Tag.audio), ("video", .video), ("application", .application), ("data", .data), ("control", .control),
    ("text", .text), ("automata", .automata), ("class", .cls), ("duplex", .duplex), ("mobility", .mobility),
    ("description", .description), ("events", .events), ("priority", .priority), ("methods", .methods), ("schemes", .schemes),
    ("extensions", .extensions), ("isfocus", .isFocus), ("actor", .actor), ("language", .language)] ∧ SameName name n.toList

/-- Each piece without the white space around it. -/
inductive Stripped : List Str → List Str → Prop
  | nil : Stripped [] []
  | cons {p t : Str} {ps ts : List Str} (h : Strips isWs p t) (hs : Stripped ps ts) : Stripped (p :: ps) (t :: ts)

/-- The value of the parameter of a tag is read as `v`. -/
inductive Reads (F : Floats) (t : Tag) : Option Str → Value → Prop
  | flag : Reads F t none (.boolean true)
  | list {s x y : Str} {ps ts : List Str} (ht : ListTag t) (hs : Strips isWs s x) (hq : x = '"' :: y ++ ['"'] ∨ x = y ∧ '"' ∉ x)
      (hp : Pieces ',' y ps) (h2 : Stripped ps ts) (hn : (ts.filter (· ≠ [])).length ≤ 20)
      (hg : ∀ w ∈ ts, w ≠ [] → GoodToken w) : Reads F t (some s) (.list (ts.filter (· ≠ [])))
  | string {s y : Str} (ht : ¬ ListTag t) (hs : Strips isWs s ('"' :: y ++ ['"'])) (hl : utf8Len y ≤ 256)
      (hc : ∀ c ∈ y, isAsciiControl c = false) (hq : '"' ∉ y) : Reads F t (some s) (.string y)
  | numeric {s x : Str} {n : Rat} (ht : ¬ ListTag t) (hs : Strips isWs s x) (hq : '"' ∉ x) (hr : F.read x = some (some n)) :
      Reads F t (some s) (.numeric n)
  | token {s x : Str} (ht : ¬ ListTag t) (hs : Strips isWs s x) (hr : F.read x = none) (hg : GoodToken x) :
      Reads F t (some s) (.token x)

/-- The value of the parameter that is written for a value; an unset flag is not written. -/
inductive Written (F : Floats) : Value → Option Str → Prop
  | flag : Written F (.boolean true) none
  | token (t : Str) : Written F (.token t) (some t)
  | none : Written F (.list []) none
  | list {l : List Str} (h : l ≠ []) : Written F (.list l) (some ('"' :: join ',' l ++ ['"']))
  | string (s : Str) : Written F (.string s) (some ('"' :: s ++ ['"']))
  | numeric (n : Rat) : Written F (.numeric n) (some (F.text n))

/-- The value has the type that the parameter of the tag is read with. -/
inductive Fits (F : Floats) (t : Tag) : Value → Prop
  | flag : Fits F t (.boolean true)
  | list {l : List Str} (ht : ListTag t) (h : l ≠ []) : Fits F t (.list l)
  | string {s : Str} (ht : ¬ ListTag t) : Fits F t (.string s)
  | numeric {n : Rat} (ht : ¬ ListTag t) (h : Reads F t (some (F.text n)) (.numeric n)) : Fits F t (.numeric n)
  | token {s : Str} (ht : ¬ ListTag t) (h : F.read s = none) : Fits F t (.token s)

/-! ## Preferences -/

/-- The values of features of Accept-Contact and Reject-Contact: as those of capabilities, but strings may have quotes. -/
inductive AllowedPref : Value → Prop
  | same {v : Value} (h : Allowed v) : AllowedPref v
  | string {s : Str} (h : utf8Len s ≤ 256) (hc : ∀ c ∈ s, isAsciiControl c = false) : AllowedPref (.string s)

/-- A contact with these capabilities is refused by a Reject-Contact with these features. -/
def Refused (F : Floats) (r caps : Feats) (explicit : Bool) : Prop :=
  explicit = true ∧ (∃ t, r t ≠ none) ∧ ∀ t v, r t = some v → Offers F caps t v

/-- A contact with these capabilities meets an Accept-Contact in full. -/
def MeetsAll (F : Floats) (a : Accept) (caps : Feats) (explicit : Bool) : Prop :=
  (∀ t, a.features t = none) ∨ ((a.explicit = true → explicit = true) ∧ ∀ t v, a.features t = some v → Offers F caps t v)

/-- A contact with these capabilities meets nothing of an Accept-Contact that asks for something. -/
def Misses (F : Floats) (a : Accept) (caps : Feats) (explicit : Bool) : Prop :=
  (∃ t, a.features t ≠ none) ∧ ((a.explicit = true ∧ explicit = false) ∨ ∀ t v, a.features t = some v → ¬ Offers F caps t v)

/-- The contact stays. -/
def Kept (F : Floats) (accepts : List Accept) (rejs : List Feats) (c : Contact) (caps : Feats) : Prop :=
  (∀ r ∈ rejs, ¬ Refused F r caps c.explicit) ∧ ∀ a ∈ accepts, a.require = true → MeetsAll F a caps c.explicit

/-- There are exactly `n` tags with the property. -/
def Count (P : Tag → Prop) (n : Nat) : Prop := ∃ l : List Tag, l.Nodup ∧ l.length = n ∧ ∀ t, t ∈ l ↔ P t

/-- The score of an Accept-Contact, for a contact it does not discard: the share of its features that are met. -/
inductive Scores (F : Floats) (a : Accept) (caps : Feats) (explicit : Bool) : Rat → Prop
  | empty (h : ∀ t, a.features t = none) : Scores F a caps explicit 1
  | hidden (h : ∃ t, a.features t ≠ none) (he : a.explicit = true) (hx : explicit = false) : Scores F a caps explicit 0
  | share {k n : Nat} (h : ∃ t, a.features t ≠ none) (he : a.explicit = true → explicit = true)
      (hn : Count (fun t => a.features t ≠ none) n) (hk : Count (fun t => ∃ v, a.features t = some v ∧ Offers F caps t v) k) :
      Scores F a caps explicit (F.rnd (k / n))

/-- The running sum of the scores, rounded at each step. -/
inductive Sums (F : Floats) (caps : Feats) (explicit : Bool) : List Accept → Rat → Rat → Prop
  | nil (s : Rat) : Sums F caps explicit [] s s
  | cons {a : Accept} {as : List Accept} {s x z : Rat} (h : Scores F a caps explicit x)
      (hs : Sums F caps explicit as (F.rnd (s + x)) z) : Sums F caps explicit (a :: as) s z

/-- The contacts that stay, in the order they came, with their caller preference: the mean of the scores, or what it was
if there is no Accept-Contact. -/
inductive Stays (F : Floats) (accepts : List Accept) (rejs : List Feats) : List Contact → List Feats → List Contact → Prop
  | nil : Stays F accepts rejs [] [] []
  | drop {c : Contact} {cs : List Contact} {f : Feats} {fs : List Feats} {out : List Contact} (h : ¬ Kept F accepts rejs c f)
      (ht : Stays F accepts rejs cs fs out) : Stays F accepts rejs (c :: cs) (f :: fs) out
  | same {c : Contact} {cs : List Contact} {f : Feats} {fs : List Feats} {out : List Contact} (h : Kept F accepts rejs c f)
      (ha : accepts = []) (ht : Stays F accepts rejs cs fs out) : Stays F accepts rejs (c :: cs) (f :: fs) (c :: out)
  | scored {c : Contact} {cs : List Contact} {f : Feats} {fs : List Feats} {out : List Contact} {s : Rat} (h : Kept F accepts rejs c f)
      (ha : accepts ≠ []) (hs : Sums F f c.explicit accepts 0 s) (ht : Stays F accepts rejs cs fs out) :
      Stays F accepts rejs (c :: cs) (f :: fs) ({ c with qa := F.rnd (s / accepts.length) } :: out)

/-- `b` is to be tried before `a`: the callee's preference counts first, then the caller's. -/
def Before (b a : Contact) : Prop := a.q < b.q ∨ (a.q = b.q ∧ a.qa < b.qa)

/-- What is used of the rounding of `f64`: it is monotone, and exact for multiples of 2^-20 up to 1024. -/
structure Rounds (rnd : Rat → Rat) : Prop where
  mono : ∀ x y, x ≤ y → rnd x ≤ rnd y
  grid : ∀ n : Nat, n ≤ 1073741824 → rnd (n / 1048576) = n / 1048576

/-- `out` is `l` in the order in which the contacts are to be tried; contacts that are equally good stay in their order. -/
def InOrder (l out : List Contact) : Prop :=
  out.Perm l ∧ out.Pairwise (fun a b => ¬ Before b a) ∧
  ∀ q qa : Rat, out.filter (fun c => decide (c.q = q ∧ c.qa = qa)) = l.filter (fun c => decide (c.q = q ∧ c.qa = qa))

/-! ## Request-Disposition -/

/-- The words of the six directives, first and second. -/
def words : List (String × String) :=
  [("proxy", "redirect"), ("fork", "no-fork"), ("cancel", "no-cancel"), ("recurse", "no-recurse"), ("parallel", "sequential"), ("queue", "no-queue")]

/-- The directives of a Request-Disposition in the order of `words`. -/
def fields (d : Disposition) : List (Option Bool) := [d.proxy, d.fork, d.cancel, d.recurse, d.parallel, d.queue]

/-- One of the pieces is the word, in any case. -/
def Says (p : Str) (w : String) : Prop := ∃ x, Strips isWs p x ∧ SameName x w.toList

/-- The last of the pieces that is one of the two words decides. -/
def Decides (ps : List Str) (w : String × String) (b : Bool) : Prop :=
  ∃ pre p post, ps = pre ++ p :: post ∧ Says p (if b then w.1 else w.2) ∧ ∀ q ∈ post, ¬ Says q w.1 ∧ ¬ Says q w.2

/-- The text says exactly this. -/
def DispositionText (s : Str) (d : Disposition) : Prop :=
  (∀ c ∈ s, isAsciiControl c = false) ∧ (∃ x ∈ fields d, x ≠ none) ∧
  ∃ ps, Pieces ',' s ps ∧ ∀ w x, (w, x) ∈ words.zip (fields d) → ∀ b, x = some b ↔ Decides ps w b

end Siphon.Prefs.Spec
