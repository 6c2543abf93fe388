import Verif.Base.Text
/-!
# Headers and header collections

Model of `crates/sip-core/src/headers.rs` (non-test part, lines 1-504).  Error payloads (lengths and
messages) are dropped, the error kind is kept.  `reserve` (377-383) only affects capacity and is not
modelled.
-/

namespace Siphon

/-- headers.rs 12-20 `HeaderError` (payloads dropped). -/
inductive HeaderError | nameTooLong | valueTooLong | tooMany | invalidName | invalidValue | emptyName
  deriving DecidableEq, Repr

/-- headers.rs 76-79 `Header`. -/
structure Header where
  name : Str
  value : Str
  deriving DecidableEq, Repr

/-- headers.rs 8 -/
def MAX_HEADER_NAME_LENGTH : Nat := 128
/-- headers.rs 9 -/
def MAX_HEADER_VALUE_LENGTH : Nat := 8192
/-- headers.rs 10 -/
def MAX_HEADERS : Nat := 200

/-- headers.rs 458-463: characters accepted in a header name. -/
def isHeaderNameChar (c : Char) : Bool :=
  isAlnum c || c ∈ ['!', '%', '\'', '*', '+', '-', '.', '^', '_', '`', '|', '~']

/-- headers.rs 437-471 `validate_header_name`. -/
def validateHeaderName (n : Str) : Except HeaderError Unit :=
  if n.isEmpty then .error .emptyName
  else if utf8Len n > MAX_HEADER_NAME_LENGTH then .error .nameTooLong
  else if n.any isAsciiControl then .error .invalidName
  else if !n.all isHeaderNameChar then .error .invalidName
  else .ok ()

/-- headers.rs 482-504 `validate_header_value`. -/
def validateHeaderValue (v : Str) : Except HeaderError Unit :=
  if utf8Len v > MAX_HEADER_VALUE_LENGTH then .error .valueTooLong
  else if v.contains '\r' || v.contains '\n' then .error .invalidValue
  else if v.contains '\x00' then .error .invalidValue
  else .ok ()

/-- headers.rs 91-102 `Header::new`. -/
def Header.new (n v : Str) : Except HeaderError Header :=
  match validateHeaderName n with
  | .error e => .error e
  | .ok () =>
    match validateHeaderValue v with
    | .error e => .error e
    | .ok () => .ok { name := n, value := v }

/-- headers.rs 125-127 `name_eq`. -/
def Header.nameEq (h : Header) (n : Str) : Bool := eqIgnoreCase h.name n

/-- headers.rs 160-162 `Headers`. -/
structure Headers where
  inner : List Header
  deriving DecidableEq, Repr

namespace Headers

/-- headers.rs 166-168 `new`. -/
def empty : Headers := ⟨[]⟩

/-- headers.rs 226-228 `len`. -/
def len (hs : Headers) : Nat := hs.inner.length

/-- headers.rs 186-201 `push`. -/
def push (hs : Headers) (n v : Str) : Except HeaderError Headers :=
  if hs.inner.length ≥ MAX_HEADERS then .error .tooMany
  else
    match Header.new n v with
    | .error e => .error e
    | .ok h => .ok ⟨hs.inner ++ [h]⟩

/-- headers.rs 208-218 `push_header`. -/
def pushHeader (hs : Headers) (h : Header) : Except HeaderError Headers :=
  if hs.inner.length ≥ MAX_HEADERS then .error .tooMany else .ok ⟨hs.inner ++ [h]⟩

/-- headers.rs 246-248 `get_header`. -/
def getHeader (hs : Headers) (n : Str) : Option Header := hs.inner.find? (·.nameEq n)

/-- headers.rs 238-243 `get` (and 251-253 `get_smol`). -/
def get (hs : Headers) (n : Str) : Option Str := (hs.getHeader n).map (·.value)

/-- headers.rs 258-263 `get_all` (and 266-271 `get_all_smol`). -/
def getAll (hs : Headers) (n : Str) : List Str := (hs.inner.filter (·.nameEq n)).map (·.value)

/-- headers.rs 279-281 `contains`. -/
def contains (hs : Headers) (n : Str) : Bool := hs.inner.any (·.nameEq n)

/-- headers.rs 284-286 `count`. -/
def count (hs : Headers) (n : Str) : Nat := (hs.inner.filter (·.nameEq n)).length

/-- headers.rs 291-295 `remove`: new collection and number removed. -/
def remove (hs : Headers) (n : Str) : Headers × Nat :=
  let kept := hs.inner.filter (fun h => !h.nameEq n)
  (⟨kept⟩, hs.inner.length - kept.length)

/-- `iter_mut().find(..)` followed by overwriting the value (headers.rs 307-308, 325-326): the first
matching header gets the new value; `none` when there is none. -/
def overwriteFirst (n v : Str) : List Header → Option (List Header)
  | [] => none
  | h :: t =>
    if h.nameEq n then some ({ h with value := v } :: t)
    else (overwriteFirst n v t).map (h :: ·)

/-- headers.rs 300-312 `replace_first`. -/
def replaceFirst (hs : Headers) (n v : Str) : Except HeaderError (Headers × Bool) :=
  match validateHeaderValue v with
  | .error e => .error e
  | .ok () =>
    match overwriteFirst n v hs.inner with
    | some l => .ok (⟨l⟩, true)
    | none => .ok (hs, false)

/-- headers.rs 315-342 `set_or_push`. -/
def setOrPush (hs : Headers) (n v : Str) : Except HeaderError Headers :=
  match validateHeaderName n with
  | .error e => .error e
  | .ok () =>
    match validateHeaderValue v with
    | .error e => .error e
    | .ok () =>
      match overwriteFirst n v hs.inner with
      | some l => .ok ⟨l⟩
      | none =>
        if hs.inner.length ≥ MAX_HEADERS then .error .tooMany
        else .ok ⟨hs.inner ++ [{ name := n, value := v }]⟩

/-- headers.rs 345-350 `retain`. -/
def retain (hs : Headers) (f : Header → Bool) : Headers := ⟨hs.inner.filter f⟩

/-- headers.rs 357-359 `remove_at`; `none` is the panic for an index out of range. -/
def removeAt (hs : Headers) (i : Nat) : Option (Header × Headers) :=
  hs.inner[i]?.map (fun h => (h, ⟨hs.inner.eraseIdx i⟩))

/-- headers.rs 372-374 `clear`. -/
def clear (_ : Headers) : Headers := ⟨[]⟩

/-- headers.rs 405-409 `from_iter`. -/
def fromIter (l : List Header) : Headers := ⟨l.take MAX_HEADERS⟩

/-- headers.rs 414-423 `try_from_iter` (and 175-177 `from_vec`). -/
def tryFromIter (l : List Header) : Except HeaderError Headers :=
  if l.length > MAX_HEADERS then .error .tooMany else .ok ⟨l⟩

end Headers

/-! ## Histories -/

/-- One call on a `Headers` value by application code.  `Header` values can only come from
`Header.new` (the fields are private), so `pushHeader` carries the strings given to it, and the
two builders replace the collection by one built from such headers. -/
inductive HdrOp
  | push (n v : Str)
  | pushHeader (n v : Str)
  | remove (n : Str)
  | replaceFirst (n v : Str)
  | setOrPush (n v : Str)
  | retain (f : Header → Bool)
  | removeAt (i : Nat)
  | clear
  | fromIter (l : List (Str × Str))
  | tryFromIter (l : List (Str × Str))

/-- The headers among the given pairs that `Header::new` accepts. -/
def builtHeaders (l : List (Str × Str)) : List Header :=
  l.filterMap (fun p => (Header.new p.1 p.2).toOption)

/-- Effect of one call; a call that returns an error (or panics) leaves the collection as it was. -/
def HdrOp.run (hs : Headers) : HdrOp → Headers
  | .push n v => match hs.push n v with | .ok r => r | .error _ => hs
  | .pushHeader n v =>
    match Header.new n v with
    | .error _ => hs
    | .ok h => match hs.pushHeader h with | .ok r => r | .error _ => hs
  | .remove n => (hs.remove n).1
  | .replaceFirst n v => match hs.replaceFirst n v with | .ok r => r.1 | .error _ => hs
  | .setOrPush n v => match hs.setOrPush n v with | .ok r => r | .error _ => hs
  | .retain f => hs.retain f
  | .removeAt i => match hs.removeAt i with | some r => r.2 | none => hs
  | .clear => hs.clear
  | .fromIter l => Headers.fromIter (builtHeaders l)
  | .tryFromIter l => match Headers.tryFromIter (builtHeaders l) with | .ok r => r | .error _ => hs

/-- A history of calls, starting from `Headers::new()`. -/
def HdrOp.runAll (ops : List HdrOp) : Headers := ops.foldl HdrOp.run Headers.empty

end Siphon
