import Verif.Base.Text
/-!
# `BTreeMap` keyed by text

`str` is ordered by its UTF-8 bytes, which is the order of the code points.  A `BTreeMap` is the list of
its entries in increasing key order; `BMap.insert` keeps that order and replaces the value of a present
key.
-/
namespace Siphon

/-- `str::lt`. -/
def strLt : Str → Str → Bool
  | [], [] => false
  | [], _ :: _ => true
  | _ :: _, [] => false
  | a :: as, b :: bs => if a.toNat < b.toNat then true else if b.toNat < a.toNat then false else strLt as bs

abbrev BMap (V : Type) := List (Str × V)

namespace BMap
variable {V : Type}

/-- `BTreeMap::get`. -/
def get (m : BMap V) (k : Str) : Option V := (m.find? (fun e => e.1 == k)).map (·.2)

/-- `BTreeMap::contains_key`. -/
def has (m : BMap V) (k : Str) : Bool := m.any (fun e => e.1 == k)

/-- `BTreeMap::insert`. -/
def insert (m : BMap V) (k : Str) (v : V) : BMap V :=
  match m with
  | [] => [(k, v)]
  | (k', v') :: t =>
    if k = k' then (k, v) :: t
    else if strLt k k' then (k, v) :: (k', v') :: t
    else (k', v') :: insert t k v

end BMap
end Siphon
