import Verif.Base.BMap
import Verif.Base.Utf8
/-!
# Capabilities and caller preferences

Model of `crates/sip-core/src/capabilities.rs` (RFC 3840) and of `crates/sip-core/src/caller_preferences.rs` (RFC 3841).

Floating point numbers: finite `f64` values are rational numbers; the arithmetic of the crate rounds, and `Floats.rnd` is
that rounding.  Formatting and parsing of `f64` are those of the standard library and are not modelled: they are the
fields `text` and `read`.  Simplification: `-0.0` and `0.0` are the same number.
-/
namespace Siphon.Prefs

/-- What the standard library does with `f64`: rounding of exact results, `to_string`, and `str::parse`; `some none` is an
infinity or not a number. -/
structure Floats where
  rnd : Rat → Rat
  text : Rat → Str
  read : Str → Option (Option Rat)

/-! ## Feature tags -/

/-- capabilities.rs 79-123 `FeatureTag`; the order of the constructors is the order of the map. -/
inductive Tag
  | audio | video | application | data | control | text | automata | cls | duplex | mobility | description
  | events | priority | methods | schemes | extensions | isFocus | actor | language
  deriving DecidableEq

/-- All tags in the order of the map. -/
def Tag.all : List Tag :=
  [.audio, .video, .application, .data, .control, .text, .automata, .cls, .duplex, .mobility, .description,
   .events, .priority, .methods, .schemes, .extensions, .isFocus, .actor, .language]

/-- capabilities.rs 155-177 `param_name`. -/
def Tag.param : Tag → Str
  | .audio => "audio".toList
  | .video => "video".toList
  | .application => "application".toList
  | .data => "data".toList
  | .control => "control".toList
  | .text => "text".toList
  | .automata => "automata".toList
  | .cls => "class".toList
  | .duplex => "duplex".toList
  | .mobility => "mobility".toList
  | .description => "description".toList
  | .events => "events".toList
  | .priority => "priority".toList
  | .methods => "methods".toList
  | .schemes => "schemes".toList
  | .extensions => "extensions".toList
  | .isFocus => "isfocus".toList
  | .actor => "actor".toList
  | .language => "language".toList

/-- The table of capabilities.rs 181-200. -/
def paramTable : List (Str × Tag) :=
  [("audio".toList, .audio), ("video".toList, .video), ("application".toList, .application), ("data".toList, .data),
   ("control".toList, .control), ("text".toList, .text), ("automata".toList, .automata), ("class".toList, .cls),
   ("duplex".toList, .duplex), ("mobility".toList, .mobility), ("description".toList, .description),
   ("events".toList, .events), ("priority".toList, .priority), ("methods".toList, .methods), ("schemes".toList, .schemes),
   ("extensions".toList, .extensions), ("isfocus".toList, .isFocus), ("actor".toList, .actor), ("language".toList, .language)]

/-- capabilities.rs 180-202 `from_param_name`. -/
def Tag.ofParam (name : Str) : Option Tag := (paramTable.find? (fun e => e.1 == lower name)).map (·.2)

/-- capabilities.rs 218-227 `is_list_valued`. -/
def Tag.isList : Tag → Bool
  | .events | .priority | .methods | .schemes | .extensions => true
  | _ => false

/-! ## Values -/

/-- capabilities.rs 245-257 `FeatureValue`; the number is finite. -/
inductive Value
  | boolean (b : Bool)
  | token (t : Str)
  | list (l : List Str)
  | string (s : Str)
  | numeric (n : Rat)
  deriving DecidableEq

/-- capabilities.rs 38-40, caller_preferences.rs 38-40. -/
def MAX_TOKEN_LENGTH : Nat := 64
def MAX_STRING_LENGTH : Nat := 256
def MAX_TOKEN_LIST_SIZE : Nat := 20

/-- capabilities.rs 484-494 and caller_preferences.rs 144-153 `is_valid_token` (the test for control characters adds
nothing). -/
def validToken (t : Str) : Bool := !t.isEmpty && t.all (fun c => isAlnum c || "-.!%*_+`'~".toList.contains c)

/-- capabilities.rs 496-498 `is_valid_string`. -/
def validString (s : Str) : Bool := !s.any (fun c => isAsciiControl c || c == '"')

/-- A token of acceptable length (capabilities.rs 321-331 and 339-349). -/
def goodToken (t : Str) : Bool := utf8Len t ≤ MAX_TOKEN_LENGTH && validToken t

/-- capabilities.rs 317-373 `validate`; the constructors 260-315 make the same tests. -/
def Value.valid : Value → Bool
  | .boolean _ => true
  | .token t => goodToken t
  | .list l => l.length ≤ MAX_TOKEN_LIST_SIZE && l.all goodToken
  | .string s => utf8Len s ≤ MAX_STRING_LENGTH && validString s
  | .numeric _ => true

/-- caller_preferences.rs 102-142 `validate_feature_value`: here a string may contain quotes. -/
def Value.validPref : Value → Bool
  | .boolean _ => true
  | .token t => goodToken t
  | .list l => l.length ≤ MAX_TOKEN_LIST_SIZE && l.all goodToken
  | .string s => utf8Len s ≤ MAX_STRING_LENGTH && !s.any isAsciiControl
  | .numeric _ => true

/-- `Vec::join(",")`. -/
def joinComma : List Str → Str
  | [] => []
  | [t] => t
  | t :: ts => t ++ ',' :: joinComma ts

/-- capabilities.rs 424-438 `to_param_value`, the value of the parameter; `none` is an error. -/
def Value.toParam (F : Floats) (v : Value) : Option (Option Str) :=
  if !v.valid then none
  else match v with
    | .boolean _ => some none
    | .token t => some (some t)
    | .list l => if l.isEmpty then some none else some (some ('"' :: joinComma l ++ ['"']))
    | .string s => some (some ('"' :: s ++ ['"']))
    | .numeric n => some (some (F.text n))

/-- `v.starts_with('"') && v.ends_with('"') && v.len() >= 2`. -/
def quoted (v : Str) : Bool := v.head? == some '"' && v.getLast? == some '"' && 2 ≤ v.length

/-- `&v[1..v.len() - 1]` of such a text. -/
def inner (v : Str) : Str := (v.drop 1).dropLast

/-- capabilities.rs 501-537 `parse_token_list`. -/
def parseList (s : Str) : Option (List Str) :=
  let s := trim s
  let s := if s.head? == some '"' && s.getLast? == some '"' then inner s else s
  let l := ((splitChar ',' s).map trim).filter (fun t => !t.isEmpty)
  if l.length > MAX_TOKEN_LIST_SIZE then none
  else if l.all goodToken then some l else none

/-- A value that passes its own constructor. -/
def checked (v : Value) : Option Value := if v.valid then some v else none

/-- capabilities.rs 443-481 `from_param_value`; `none` is an error. -/
def Value.ofParam (F : Floats) (t : Tag) : Option Str → Option Value
  | none => some (.boolean true)
  | some v =>
    let v := trim v
    if v.contains '"' && !quoted v then none
    else if t.isList then (parseList v).bind (fun l => checked (.list l))
    else if v.head? == some '"' && v.getLast? == some '"' then
      if v.length < 2 then none else checked (.string (inner v))
    else match F.read v with
      | some (some n) => some (.numeric n)
      | some none => none
      | none => checked (.token v)

/-! ## Sets of capabilities -/

/-- `BTreeMap<FeatureTag, FeatureValue>`. -/
abbrev Feats := Tag → Option Value

/-- capabilities.rs 616-620 `new`. -/
def Feats.new : Feats := fun _ => none

/-- `BTreeMap::insert`. -/
def Feats.set (f : Feats) (t : Tag) (v : Value) : Feats := fun x => if x = t then some v else f x

/-- `BTreeMap::iter`. -/
def Feats.entries (f : Feats) : List (Tag × Value) := Tag.all.filterMap (fun t => (f t).map (fun v => (t, v)))

/-- capabilities.rs 623-666: `add` after the constructor of the capability; `none` is an error. -/
def Feats.add (f : Feats) (t : Tag) (v : Value) : Option Feats := if v.valid then some (f.set t v) else none

/-- One turn of the loop of capabilities.rs 701-707. -/
def toParamsStep (F : Floats) (m : Option (BMap (Option Str))) (e : Tag × Value) : Option (BMap (Option Str)) :=
  match m with
  | none => none
  | some m =>
    match e.2.toParam F with
    | none => none
    | some x => if e.2 = .boolean false then some m else some (m.insert e.1.param x)

/-- capabilities.rs 699-709 `to_params`. -/
def Feats.toParams (F : Floats) (f : Feats) : Option (BMap (Option Str)) := f.entries.foldl (toParamsStep F) (some [])

/-- One turn of the loop of capabilities.rs 718-724. -/
def fromParamsStep (F : Floats) (f : Option Feats) (e : Str × Option Str) : Option Feats :=
  match f with
  | none => none
  | some f =>
    match Tag.ofParam e.1 with
    | none => some f
    | some t =>
      match Value.ofParam F t e.2 with
      | none => none
      | some v => f.add t v

/-- capabilities.rs 713-727 `from_params`. -/
def fromParams (F : Floats) (m : BMap (Option Str)) : Option Feats := m.foldl (fromParamsStep F) (some .new)

/-- `f64::EPSILON` = 2^-52. -/
def EPSILON : Rat := 1 / 4503599627370496

/-- `f64::abs`. -/
def absR (x : Rat) : Rat := if x < 0 then -x else x

/-- capabilities.rs 754-781 and caller_preferences.rs 317-344 `values_match`. -/
def valuesMatch (F : Floats) : Value → Value → Bool
  | .boolean a, .boolean b => a == b
  | .token a, .token b => eqIgnoreCase a b
  | .list a, .list b =>
    if a.length > MAX_TOKEN_LIST_SIZE || b.length > MAX_TOKEN_LIST_SIZE then false
    else a.all (fun x => (b.map lower).contains (lower x))
  | .string a, .string b => a == b
  | .numeric a, .numeric b => absR (F.rnd (a - b)) < EPSILON
  | _, _ => false

/-- One required feature against a set (capabilities.rs 738-747). -/
def meets (F : Floats) (f : Feats) (e : Tag × Value) : Bool :=
  match f e.1 with
  | none => false
  | some v => valuesMatch F e.2 v

/-- capabilities.rs 737-750 `CapabilitySet::matches`. -/
def Feats.matches (F : Floats) (f required : Feats) : Bool := required.entries.all (meets F f)

/-! ## Accept-Contact and Reject-Contact -/

/-- caller_preferences.rs 163-172 `AcceptContact`. -/
structure Accept where
  features : Feats
  require : Bool
  explicit : Bool
  q : Option Rat

/-- caller_preferences.rs 37 `MAX_FEATURES`. -/
def MAX_FEATURES : Nat := 50

/-- caller_preferences.rs 186-198 and 221-232, 375-387 and 390-401: a feature is added; `none` is an error. -/
def addFeature (f : Feats) (t : Tag) (v : Value) : Option Feats :=
  if (f t).isNone && f.entries.length ≥ MAX_FEATURES then none
  else if v.validPref then some (f.set t v) else none

/-- The loop of caller_preferences.rs 286-298; `none` is the early return of 0. -/
def acceptLoop (F : Floats) (require : Bool) (caps : Feats) : List (Tag × Value) → Rat → Option Rat
  | [], m => some m
  | e :: es, m =>
    if meets F caps e then acceptLoop F require caps es (F.rnd (m + 1))
    else if require then none
    else acceptLoop F require caps es m

/-- caller_preferences.rs 272-301 `AcceptContact::matches`. -/
def Accept.score (F : Floats) (a : Accept) (caps : Feats) (explicit : Bool) : Rat :=
  if a.features.entries.isEmpty then 1
  else if a.explicit && !explicit then 0
  else
    match acceptLoop F a.require caps a.features.entries 0 with
    | none => 0
    | some m => F.rnd (m / a.features.entries.length)

/-- caller_preferences.rs 419-443 `RejectContact::matches`; a Reject-Contact is its features. -/
def rejects (F : Floats) (r : Feats) (caps : Feats) (explicit : Bool) : Bool :=
  if r.entries.isEmpty then false
  else if !explicit then false
  else r.entries.all (meets F caps)

/-! ## Scoring -/

/-- caller_preferences.rs 718-727 `ScoredContact`. -/
structure Contact where
  uri : Str
  q : Rat
  qa : Rat
  explicit : Bool
  deriving DecidableEq

/-- `f64::clamp(0.0, 1.0)`. -/
def clamp (x : Rat) : Rat := if x < 0 then 0 else if 1 < x then 1 else x

/-- caller_preferences.rs 731-741 `ScoredContact::new`. -/
def Contact.new (uri : Str) (q : Rat) : Contact := ⟨uri, clamp q, 1, false⟩

/-- The loop of caller_preferences.rs 824-833: the sum of the scores, or `none` for a contact that is discarded. -/
def total (F : Floats) (caps : Feats) (explicit : Bool) : List Accept → Rat → Option Rat
  | [], s => some s
  | a :: as, s =>
    let x := a.score F caps explicit
    if a.require && x == 0 then none else total F caps explicit as (F.rnd (s + x))

/-- The closure of caller_preferences.rs 812-845. -/
def assess (F : Floats) (accepts : List Accept) (rejs : List Feats) (p : Contact × Feats) : Option Contact :=
  if rejs.any (fun r => rejects F r p.2 p.1.explicit) then none
  else if accepts.isEmpty then some p.1
  else (total F p.2 p.1.explicit accepts 0).map (fun s => { p.1 with qa := F.rnd (s / accepts.length) })

/-- caller_preferences.rs 849-858: `b` comes strictly before `a`. -/
def better (b a : Contact) : Bool := if b.q = a.q then decide (a.qa < b.qa) else decide (a.q < b.q)

/-- `slice::sort_by` with this comparison, as an insertion sort (both are stable). -/
def place (x : Contact) : List Contact → List Contact
  | [] => [x]
  | y :: ys => if better y x then y :: place x ys else x :: y :: ys

def order : List Contact → List Contact
  | [] => []
  | x :: xs => place x (order xs)

/-- caller_preferences.rs 41-43. -/
def MAX_CONTACTS : Nat := 1024
def MAX_ACCEPT_HEADERS : Nat := 32
def MAX_REJECT_HEADERS : Nat := 32

/-- caller_preferences.rs 784-861 `score_contacts`; `none` is an error. -/
def scoreContacts (F : Floats) (contacts : List Contact) (accepts : List Accept) (rejs : List Feats) (caps : List Feats) :
    Option (List Contact) :=
  if contacts.length > MAX_CONTACTS then none
  else if accepts.length > MAX_ACCEPT_HEADERS then none
  else if rejs.length > MAX_REJECT_HEADERS then none
  else if contacts.length ≠ caps.length then none
  else some (order ((contacts.zip caps).filterMap (assess F accepts rejs)))

/-! ## Request-Disposition -/

/-- caller_preferences.rs 457-470 `RequestDisposition`: for each of the six directives the first (`true`) or the second
(`false`) of its two words. -/
structure Disposition where
  proxy : Option Bool
  fork : Option Bool
  cancel : Option Bool
  recurse : Option Bool
  parallel : Option Bool
  queue : Option Bool
  deriving DecidableEq

/-- caller_preferences.rs 474-483 `new`. -/
def Disposition.new : Disposition := ⟨none, none, none, none, none, none⟩

/-- caller_preferences.rs 551-568: one directive. -/
def directive (rd : Disposition) (s : Str) : Disposition :=
  let w := lower (trim s)
  if w = "proxy".toList then { rd with proxy := some true }
  else if w = "redirect".toList then { rd with proxy := some false }
  else if w = "fork".toList then { rd with fork := some true }
  else if w = "no-fork".toList then { rd with fork := some false }
  else if w = "cancel".toList then { rd with cancel := some true }
  else if w = "no-cancel".toList then { rd with cancel := some false }
  else if w = "recurse".toList then { rd with recurse := some true }
  else if w = "no-recurse".toList then { rd with recurse := some false }
  else if w = "parallel".toList then { rd with parallel := some true }
  else if w = "sequential".toList then { rd with parallel := some false }
  else if w = "queue".toList then { rd with queue := some true }
  else if w = "no-queue".toList then { rd with queue := some false }
  else rd

/-- caller_preferences.rs 543-576 `parse`. -/
def Disposition.parse (s : Str) : Option Disposition :=
  if s.any isAsciiControl then none
  else
    let rd := (splitChar ',' s).foldl directive .new
    if rd = .new then none else some rd

/-- The word of a directive (caller_preferences.rs 618-715). -/
def word (yes no : String) : Option Bool → List Str
  | none => []
  | some true => [yes.toList]
  | some false => [no.toList]

/-- `Vec::join(", ")`. -/
def joinCommaSpace : List Str → Str
  | [] => []
  | [t] => t
  | t :: ts => t ++ ',' :: ' ' :: joinCommaSpace ts

/-- caller_preferences.rs 585-611 `Display`. -/
def Disposition.show (d : Disposition) : Str :=
  joinCommaSpace (word "proxy" "redirect" d.proxy ++ word "fork" "no-fork" d.fork ++ word "cancel" "no-cancel" d.cancel ++
    word "recurse" "no-recurse" d.recurse ++ word "parallel" "sequential" d.parallel ++ word "queue" "no-queue" d.queue)

end Siphon.Prefs
