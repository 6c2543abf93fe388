import Verif.Base.Percent
import Verif.Core.Uri
/-!
# JSON as `serde_json` reads and writes it, and base64url (C108 to C110)

The crate `sip-identity` reads PASSporTs with `serde_json::from_slice` and `base64` (engine `URL_SAFE_NO_PAD`), and writes them with
`serde_json::to_vec`.  Modelled after their documented behaviour; their source is not part of /repo.  A byte of a JSON text is
written as the character with the same number, so that literals can be used.
-/
namespace Siphon.Ident

/-- A JSON value as far as deserializing into the structs of passport.rs depends on it: an integer is told from a number with
fraction or exponent; a text that is no Unicode text (bytes that are not UTF-8, unpaired surrogates) is `none`, which
`serde_json` only accepts where it ignores the value. -/
inductive Json
  | null
  | bool (b : Bool)
  | int (n : Int)
  | float
  | str (s : Option Str)
  | arr (xs : List Json)
  | obj (kvs : List (Option Str × Json))

/-- Bytes as characters. -/
def asChars (bs : Bytes) : Str := bs.map (fun b => Char.ofNat b.toNat)

/-- One byte of a text, or a code from `\u`. -/
inductive Item
  | byte (b : Nat)
  | code (n : Nat)
  deriving DecidableEq, Repr

/-- `serde_json` `decode_hex_val`. -/
def hexVal (c : Char) : Option Nat :=
  if '0' ≤ c ∧ c ≤ '9' then some (c.toNat - 48)
  else if 'a' ≤ c ∧ c ≤ 'f' then some (c.toNat - 87)
  else if 'A' ≤ c ∧ c ≤ 'F' then some (c.toNat - 55)
  else none

/-- `serde_json` `parse_escape`: the byte for the character after a backslash. -/
def escaped (c : Char) : Option Nat :=
  if c = '"' then some 34
  else if c = '\\' then some 92
  else if c = '/' then some 47
  else if c = 'b' then some 8
  else if c = 'f' then some 12
  else if c = 'n' then some 10
  else if c = 'r' then some 13
  else if c = 't' then some 9
  else none

/-- `serde_json` `parse_str` and `ignore_str`: from after the quote to after the closing quote. -/
def lexStr : Str → Option (List Item × Str)
  | [] => none
  | '"' :: t => some ([], t)
  | '\\' :: 'u' :: a :: b :: c :: d :: t =>
    match hexVal a, hexVal b, hexVal c, hexVal d with
    | some a, some b, some c, some d => (lexStr t).map (fun p => (.code (((a * 16 + b) * 16 + c) * 16 + d) :: p.1, p.2))
    | _, _, _, _ => none
  | '\\' :: e :: t =>
    match escaped e with
    | some b => (lexStr t).map (fun p => (.byte b :: p.1, p.2))
    | none => none
  | c :: t => if c = '\\' ∨ c.toNat < 32 then none else (lexStr t).map (fun p => (.byte c.toNat :: p.1, p.2))

/-- `serde_json` `parse_unicode_escape` with validation: the bytes of a text, pairs of surrogates joined. -/
def itemBytes : List Item → Option Bytes
  | [] => some []
  | .byte b :: t => (itemBytes t).map (UInt8.ofNat b :: ·)
  | .code n :: t =>
    if 0xD800 ≤ n ∧ n ≤ 0xDBFF then
      match t with
      | .code m :: t =>
        if 0xDC00 ≤ m ∧ m ≤ 0xDFFF then
          (itemBytes t).map (String.utf8EncodeChar (Char.ofNat (0x10000 + (n - 0xD800) * 1024 + (m - 0xDC00))) ++ ·)
        else none
      | _ => none
    else if 0xDC00 ≤ n ∧ n ≤ 0xDFFF then none
    else (itemBytes t).map (String.utf8EncodeChar (Char.ofNat n) ++ ·)

/-- The text, if it is one. -/
def itemText (us : List Item) : Option Str := (itemBytes us).bind utf8Decode

/-- `serde_json` `parse_whitespace`. -/
def isJsonWs (c : Char) : Bool := c == ' ' || c == '\t' || c == '\n' || c == '\r'

def skipWs (s : Str) : Str := s.dropWhile isJsonWs

/-- One digit or more. -/
def digits (s : Str) : Option (Str × Str) :=
  if (s.takeWhile isDigit).isEmpty then none else some (s.takeWhile isDigit, s.dropWhile isDigit)

/-- The value of digits. -/
def digitsVal (ds : Str) : Nat := ds.foldl (fun a c => a * 10 + (c.toNat - 48)) 0

/-- The fraction: was there one, and the rest. -/
def readFraction : Str → Option (Bool × Str)
  | '.' :: t => (digits t).map (fun p => (true, p.2))
  | s => some (false, s)

/-- The exponent. -/
def readExponent : Str → Option (Bool × Str)
  | c :: t =>
    if c = 'e' ∨ c = 'E' then
      match t with
      | '+' :: t => (digits t).map (fun p => (true, p.2))
      | '-' :: t => (digits t).map (fun p => (true, p.2))
      | t => (digits t).map (fun p => (true, p.2))
    else some (false, c :: t)
  | [] => some (false, [])

/-- `serde_json` `parse_integer` and `ignore_integer`: no leading zeros, `-0` is a float. -/
def readNumber (s : Str) : Option (Json × Str) :=
  let (neg, s) := match s with | '-' :: t => (true, t) | s => (false, s)
  match digits s with
  | none => none
  | some (ds, r) =>
    if ds.head? = some '0' ∧ 1 < ds.length then none
    else
      match readFraction r with
      | none => none
      | some (fr, r) =>
        match readExponent r with
        | none => none
        | some (ex, r) =>
          if fr ∨ ex then some (.float, r)
          else if neg ∧ digitsVal ds = 0 then some (.float, r)
          else some (.int (if neg then - (digitsVal ds : Int) else digitsVal ds), r)

mutual

/-- `serde_json` `deserialize_any` and `ignore_value`, at the first character of a value. -/
def readValue : Nat → Str → Option (Json × Str)
  | 0, _ => none
  | _ + 1, [] => none
  | f + 1, c :: r =>
    if c = 'n' then (stripPrefix "ull".toList r).map (fun r => (.null, r))
    else if c = 't' then (stripPrefix "rue".toList r).map (fun r => (.bool true, r))
    else if c = 'f' then (stripPrefix "alse".toList r).map (fun r => (.bool false, r))
    else if c = '"' then (lexStr r).map (fun p => (.str (itemText p.1), p.2))
    else if c = '[' then
      match skipWs r with
      | ']' :: r => some (.arr [], r)
      | r => (readElems f r).map (fun p => (.arr p.1, p.2))
    else if c = '{' then
      match skipWs r with
      | '}' :: r => some (.obj [], r)
      | r => (readMembers f r).map (fun p => (.obj p.1, p.2))
    else readNumber (c :: r)

/-- `SeqAccess` of `serde_json`, at the first character of an element. -/
def readElems : Nat → Str → Option (List Json × Str)
  | 0, _ => none
  | f + 1, s =>
    match readValue f s with
    | none => none
    | some (v, r) =>
      match skipWs r with
      | ']' :: r => some ([v], r)
      | ',' :: r => (readElems f (skipWs r)).map (fun p => (v :: p.1, p.2))
      | _ => none

/-- `MapAccess` of `serde_json`, at the first character of a key. -/
def readMembers : Nat → Str → Option (List (Option Str × Json) × Str)
  | 0, _ => none
  | f + 1, s =>
    match s with
    | '"' :: r =>
      match lexStr r with
      | none => none
      | some (k, r) =>
        match skipWs r with
        | ':' :: r =>
          match readValue f (skipWs r) with
          | none => none
          | some (v, r) =>
            match skipWs r with
            | '}' :: r => some ([(itemText k, v)], r)
            | ',' :: r => (readMembers f (skipWs r)).map (fun p => ((itemText k, v) :: p.1, p.2))
            | _ => none
        | _ => none
    | _ => none

end

/-- `serde_json::from_slice`: one value, with nothing but white space around it. -/
def readJson (bs : Bytes) : Option Json :=
  let s := asChars bs
  match readValue (s.length + 1) (skipWs s) with
  | some (v, r) => if (skipWs r).isEmpty then some v else none
  | none => none

/-! ## Into structs, as `#[derive(Deserialize)]` does it -/

/-- The values of the fields `names` of a struct, in their order; `none` where a field is not given.  From an object: every
key must be a text, other keys are ignored, a second value for a field is an error.  From an array: by position, at most as
many as there are fields. -/
def structFields (names : List String) : Json → Option (List (Option Json))
  | .obj kvs =>
    if kvs.any (fun p => p.1.isNone) then none
    else if names.any (fun n => decide (1 < (kvs.filter (fun p => decide (p.1 = some n.toList))).length)) then none
    else some (names.map (fun n => (kvs.find? (fun p => decide (p.1 = some n.toList))).map (·.2)))
  | .arr xs => if names.length < xs.length then none else some (xs.map some ++ List.replicate (names.length - xs.length) none)
  | _ => none

/-- `String`. -/
def asString : Json → Option Str
  | .str (some s) => some s
  | _ => none

/-- `#[serde(default)] Option<String>`. -/
def asOptString : Option Json → Option (Option Str)
  | none => some none
  | some .null => some none
  | some (.str (some s)) => some (some s)
  | _ => none

/-- `Vec<String>`. -/
def asStrings : List Json → Option (List Str)
  | [] => some []
  | .str (some s) :: t => (asStrings t).map (s :: ·)
  | _ => none

/-- `#[serde(default)] Option<Vec<String>>`. -/
def asOptStrings : Option Json → Option (Option (List Str))
  | none => some none
  | some .null => some none
  | some (.arr xs) => (asStrings xs).map some
  | _ => none

/-- `#[serde(default)] Option<i64>`. -/
def asOptI64 : Option Json → Option (Option Int)
  | none => some none
  | some .null => some none
  | some (.int n) => if -9223372036854775808 ≤ n ∧ n ≤ 9223372036854775807 then some (some n) else none
  | _ => none

/-! ## Writing -/

/-- `serde_json` `format_escaped_str`: the escape for one character. -/
def writeChar (c : Char) : Str :=
  if c = '"' then ['\\', '"']
  else if c = '\\' then ['\\', '\\']
  else if c.toNat = 8 then ['\\', 'b']
  else if c.toNat = 9 then ['\\', 't']
  else if c.toNat = 10 then ['\\', 'n']
  else if c.toNat = 12 then ['\\', 'f']
  else if c.toNat = 13 then ['\\', 'r']
  else if c.toNat < 32 then ['\\', 'u', '0', '0', hexDigit (c.toNat / 16), hexDigit (c.toNat % 16)]
  else [c]
where
  /-- a hexadecimal digit, in small letters -/
  hexDigit (n : Nat) : Char := if n < 10 then Char.ofNat (48 + n) else Char.ofNat (87 + n)

/-- A text in quotes. -/
def writeStr (s : Str) : Str := '"' :: s.flatMap writeChar ++ ['"']

/-- An `i64`, as `itoa` writes it. -/
def writeInt (n : Int) : Str := if n < 0 then '-' :: showNat n.natAbs else showNat n.natAbs

/-! ## base64url without padding -/

/-- The alphabet. -/
def alphabet : Str := "ABCDEFGHIJKLMNOPQRSTUVWXYZabcdefghijklmnopqrstuvwxyz0123456789-_".toList

/-- The letter for six bits. -/
def b64Char (n : Nat) : Char :=
  match alphabet[n]? with
  | some c => c
  | none => 'A'

/-- The six bits of a letter. -/
def b64Val (c : Char) : Option Nat := alphabet.idxOf? c

/-- `URL_SAFE_NO_PAD.encode`. -/
def b64Encode : Bytes → Str
  | a :: b :: c :: t =>
    b64Char (a.toNat / 4) :: b64Char (a.toNat % 4 * 16 + b.toNat / 16) :: b64Char (b.toNat % 16 * 4 + c.toNat / 64) ::
      b64Char (c.toNat % 64) :: b64Encode t
  | [a, b] => [b64Char (a.toNat / 4), b64Char (a.toNat % 4 * 16 + b.toNat / 16), b64Char (b.toNat % 16 * 4)]
  | [a] => [b64Char (a.toNat / 4), b64Char (a.toNat % 4 * 16)]
  | [] => []

/-- `URL_SAFE_NO_PAD.decode`: no padding, and the bits left over must be zero. -/
def b64Decode : Str → Option Bytes
  | w :: x :: y :: z :: t =>
    match b64Val w, b64Val x, b64Val y, b64Val z with
    | some w, some x, some y, some z =>
      (b64Decode t).map (fun r => UInt8.ofNat (w * 4 + x / 16) :: UInt8.ofNat (x % 16 * 16 + y / 4) ::
        UInt8.ofNat (y % 4 * 64 + z) :: r)
    | _, _, _, _ => none
  | [w, x, y] =>
    match b64Val w, b64Val x, b64Val y with
    | some w, some x, some y =>
      if y % 4 = 0 then some [UInt8.ofNat (w * 4 + x / 16), UInt8.ofNat (x % 16 * 16 + y / 4)] else none
    | _, _, _ => none
  | [w, x] =>
    match b64Val w, b64Val x with
    | some w, some x => if x % 16 = 0 then some [UInt8.ofNat (w * 4 + x / 16)] else none
    | _, _ => none
  | [_] => none
  | [] => some []

end Siphon.Ident
