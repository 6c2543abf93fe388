import Verif.Core.Headers
/-!
# Privacy (C111, C112)

Model of `crates/sip-core/src/privacy.rs`.  Error texts are dropped.
-/
namespace Siphon.Priv

/-- privacy.rs 61-74 `PrivacyValue`. -/
inductive PValue | none | header | session | user | id | critical
  deriving DecidableEq, Repr

/-- privacy.rs 78-87 `as_str`. -/
def PValue.asStr : PValue → Str
  | .none => "none".toList
  | .header => "header".toList
  | .session => "session".toList
  | .user => "user".toList
  | .id => "id".toList
  | .critical => "critical".toList

/-- privacy.rs 11-18 `PrivacyError`, without the texts. -/
inductive PErr | tooMany | inputTooLarge | invalidValue | emptyValues | parseError
  deriving DecidableEq, Repr

/-- privacy.rs 105-119 `PrivacyValue::from_str`.  `to_lowercase` is the Unicode mapping; of the characters outside ASCII only the
Kelvin sign has an ASCII letter as image, which occurs in none of the words, so the ASCII mapping decides the same. -/
def PValue.parse (s : Str) : Option PValue :=
  let s := lower s
  if s = "none".toList then some .none
  else if s = "header".toList then some .header
  else if s = "session".toList then some .session
  else if s = "user".toList then some .user
  else if s = "id".toList then some .id
  else if s = "critical".toList then some .critical
  else Option.none

/-- privacy.rs 7 -/
def MAX_PRIVACY_VALUES : Nat := 10
/-- privacy.rs 8 -/
def MAX_PARSE_INPUT : Nat := 256

/-- privacy.rs 158-177 `PrivacyHeader::new`; the header is its values. -/
def new (vs : List PValue) : Except PErr (List PValue) :=
  if vs.isEmpty then .error .emptyValues
  else if 1 < vs.length ∧ vs.contains .none then .error .invalidValue
  else if MAX_PRIVACY_VALUES < vs.length then .error .tooMany
  else .ok vs

/-- The values of the pieces (privacy.rs 254-260): pieces trimmed, empty ones dropped, the first unknown one an error. -/
def readValues : List Str → Option (List PValue)
  | [] => some []
  | p :: ps =>
    if (trim p).isEmpty then readValues ps
    else
      match PValue.parse (trim p) with
      | some v => (readValues ps).map (v :: ·)
      | Option.none => Option.none

/-- privacy.rs 245-263 `PrivacyHeader::parse`. -/
def parse (s : Str) : Except PErr (List PValue) :=
  if utf8Len s > MAX_PARSE_INPUT then .error .inputTooLarge
  else
    match readValues (splitChar ';' s) with
    | Option.none => .error .invalidValue
    | some vs => new vs

/-- privacy.rs 266-280: the text of a Privacy header. -/
def display : List PValue → Str
  | [] => []
  | [v] => v.asStr
  | v :: vs => v.asStr ++ "; ".toList ++ display vs

/-- privacy.rs 90-92, 214-218 `requires_identity_anonymization`. -/
def hidesIdentity (vs : List PValue) : Bool := vs.any (fun v => v == .id || v == .user)

/-- privacy.rs 95-97, 221-223 `requires_header_privacy`. -/
def hidesHeaders (vs : List PValue) : Bool := vs.any (fun v => v == .header || v == .user)

/-- privacy.rs 298-301 `parse_privacy_header`. -/
def ofHeaders (hs : Headers) : Option (List PValue) :=
  match hs.get "Privacy".toList with
  | Option.none => Option.none
  | some v => (parse v).toOption

/-- privacy.rs 498-504 `requires_privacy_enforcement`. -/
def required (hs : Headers) : Bool :=
  match ofHeaders hs with
  | some vs => !vs.contains .none
  | Option.none => false

/-- privacy.rs 308-316 `REMOVABLE_HEADERS`. -/
def removable : List String :=
  ["Subject", "Call-Info", "Organization", "User-Agent", "Reply-To", "In-Reply-To", "Server"]

/-- privacy.rs 451-480 `split_header_params`: the text before and from the first semicolon outside quotes and angle brackets. -/
def splitParams : Str → Bool → Bool → Bool → Str × Str
  | [], _, _, _ => ([], [])
  | c :: t, q, a, e =>
    let keep (q a e : Bool) : Str × Str := (c :: (splitParams t q a e).1, (splitParams t q a e).2)
    if e then keep q a false
    else if c = '\\' ∧ q = true then keep q a true
    else if c = '"' then keep (!q) a false
    else if c = '<' ∧ q = false then keep q true false
    else if c = '>' ∧ q = false then keep q false false
    else if c = ';' ∧ q = false ∧ a = false then ([], c :: t)
    else keep q a false

/-- privacy.rs 432-449 `anonymize_identity_header`. -/
def anonymous (v : Str) : Except PErr Str :=
  if utf8Len v > 1024 then .error .inputTooLarge
  else .ok ("\"Anonymous\" <sip:anonymous@anonymous.invalid>".toList ++ (splitParams v false false false).2)

/-- privacy.rs 392-399, 401-408: one of the two headers is replaced.  The headers are changed in place, also before an error. -/
def replaceHeader (hs : Headers) (name : String) : Headers × Option PErr :=
  match hs.get name.toList with
  | Option.none => (hs, Option.none)
  | some v =>
    match anonymous v with
    | .error e => (hs, some e)
    | .ok w =>
      match (hs.remove name.toList).1.push name.toList w with
      | .error _ => ((hs.remove name.toList).1, some .parseError)
      | .ok hs => (hs, Option.none)

/-- privacy.rs 388-425 `anonymize_identity_headers`. -/
def anonymize (hs : Headers) : Headers × Option PErr :=
  match replaceHeader hs "From" with
  | (hs, some e) => (hs, some e)
  | (hs, Option.none) =>
    match replaceHeader hs "Contact" with
    | (hs, some e) => (hs, some e)
    | (hs, Option.none) =>
      (((hs.remove "P-Asserted-Identity".toList).1.remove "P-Preferred-Identity".toList).1, Option.none)

/-- privacy.rs 353-378 `enforce_privacy`: the headers after the call, and the error if there was one. -/
def enforce (hs : Headers) (vs : List PValue) : Headers × Option PErr :=
  if vs.length = 1 ∧ vs.contains .none then (hs, Option.none)
  else
    let hs := if hidesHeaders vs then removable.foldl (fun hs n => (hs.remove n.toList).1) hs else hs
    if hidesIdentity vs then anonymize hs else (hs, Option.none)

end Siphon.Priv
