import Verif.Base.Utf8
import Verif.Base.Num
/-!
# UTF-8 decoding and percent decoding

`std::str::from_utf8` and `percent_encoding::percent_decode_str(..).decode_utf8()`.
-/
namespace Siphon

/-- The code point spelled by a lead byte's payload and continuation payloads. -/
def codePoint (bs : List Nat) : Nat := bs.foldl (fun a b => a * 64 + b) 0

/-- Accept `bs` as the encoding of code point `n`: `n` is a scalar value and `bs` is its (shortest)
encoding. -/
def acceptChar (n : Nat) (bs : Bytes) : Option Char :=
  if n.isValidChar ∧ String.utf8EncodeChar (Char.ofNat n) = bs then some (Char.ofNat n) else none

/-- The first character of a byte sequence and the bytes after it. -/
def takeChar : Bytes → Option (Char × Bytes)
  | [] => none
  | a :: t =>
    if a.toNat < 128 then some (Char.ofNat a.toNat, t)
    else if a.toNat < 224 then
      match t with
      | b :: t => (acceptChar (codePoint [a.toNat - 192, b.toNat - 128]) [a, b]).map (·, t)
      | _ => none
    else if a.toNat < 240 then
      match t with
      | b :: c :: t =>
        (acceptChar (codePoint [a.toNat - 224, b.toNat - 128, c.toNat - 128]) [a, b, c]).map (·, t)
      | _ => none
    else
      match t with
      | b :: c :: d :: t =>
        (acceptChar (codePoint [a.toNat - 240, b.toNat - 128, c.toNat - 128, d.toNat - 128]) [a, b, c, d]).map (·, t)
      | _ => none

/-- All characters (fuel: at least the number of bytes). -/
def utf8DecodeGo : Nat → Bytes → Option Str
  | _, [] => some []
  | 0, _ :: _ => none
  | f + 1, a :: t =>
    match takeChar (a :: t) with
    | some (c, rest) => (utf8DecodeGo f rest).map (c :: ·)
    | none => none

/-- `std::str::from_utf8`: `none` is `Err`. -/
def utf8Decode (bs : Bytes) : Option Str := utf8DecodeGo bs.length bs

/-- Value of a hexadecimal digit given as a byte. -/
def hexByte (b : UInt8) : Option Nat :=
  let n := b.toNat
  if 48 ≤ n ∧ n ≤ 57 then some (n - 48)
  else if 97 ≤ n ∧ n ≤ 102 then some (n - 87)
  else if 65 ≤ n ∧ n ≤ 70 then some (n - 55)
  else none

/-- `percent_decode_str(s)`: `%` followed by two hexadecimal digits becomes that byte, everything else is
kept.  (The first argument is fuel, at least the number of bytes.) -/
def percentGo : Nat → Bytes → Bytes
  | 0, _ => []
  | _, [] => []
  | f + 1, a :: t =>
    if a.toNat = 37 then
      match t with
      | b :: c :: t' =>
        match hexByte b, hexByte c with
        | some x, some y => UInt8.ofNat (x * 16 + y) :: percentGo f t'
        | _, _ => a :: percentGo f t
      | _ => a :: percentGo f t
    else a :: percentGo f t

/-- `percent_decode_str(s).decode_utf8()`. -/
def percentDecode (s : Str) : Option Str :=
  let bs := utf8 s
  utf8Decode (percentGo bs.length bs)

end Siphon
