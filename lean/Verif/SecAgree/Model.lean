import Verif.Base.Text
import Verif.Base.BMap
import Verif.Offer.Model
/-!
# Security agreement (sip-core, security.rs, RFC 3329)

Mechanisms, entries, the three headers, the choice of a mechanism and its verification.  An error is `none`: its kind and
message are not modelled.  The three header types (`SecurityClientHeader`, `SecurityServerHeader`, `SecurityVerifyHeader`)
hold the same list of entries and are one type here.
-/
namespace Siphon.SecAgree

/-- A finite `f32` in the range that occurs: its exact value, and whether it is the negative zero (which `total_cmp` puts
before the positive one). -/
structure F32 where
  val : Rat
  minus : Bool
  deriving DecidableEq, Repr

/-- What the standard library does with `f32`: the rounding of exact results, `str::parse` (`some none` is an infinity or
not a number), and `format!("{:.3}")`. -/
structure Floats where
  rnd : Rat → Rat
  read : Str → Option (Option F32)
  fixed3 : F32 → Str

/-- security.rs 12-16. -/
def MAX_MECHANISM_NAME_LENGTH : Nat := 64
def MAX_PARAM_NAME_LENGTH : Nat := 64
def MAX_PARAM_VALUE_LENGTH : Nat := 256
def MAX_PARAMS_PER_ENTRY : Nat := 20
def MAX_ENTRIES : Nat := 10

/-- security.rs 45-66 `validate_mechanism_name`. -/
def validMechanism (s : Str) : Bool :=
  !s.isEmpty && !(utf8Len s > MAX_MECHANISM_NAME_LENGTH) && !s.any (fun c => isControl c || isWs c)

/-- security.rs 68-92 `validate_param_name`. -/
def validName (s : Str) : Bool :=
  !s.isEmpty && !(utf8Len s > MAX_PARAM_NAME_LENGTH) &&
    !s.any (fun c => isControl c || isWs c || c == ';' || c == '=' || c == ',')

/-- security.rs 94-109 `validate_param_value`. -/
def validValue (s : Str) : Bool := !(utf8Len s > MAX_PARAM_VALUE_LENGTH) && !s.any isControl

/-- security.rs 111-125 `validate_q_value` (the value is finite here). -/
def validQ (q : F32) : Bool := decide (0 ≤ q.val) && decide (q.val ≤ 1)

/-- security.rs 128-140 `SecurityMechanism`. -/
inductive Mechanism | tls | digest | ipsecIke | ipsecMan | other (s : Str)
  deriving DecidableEq, Repr

/-- security.rs 144-152 `as_str`, and 168-172 `Display`. -/
def Mechanism.text : Mechanism → Str
  | .tls => "tls".toList
  | .digest => "digest".toList
  | .ipsecIke => "ipsec-ike".toList
  | .ipsecMan => "ipsec-man".toList
  | .other s => s

/-- security.rs 155-165 `SecurityMechanism::parse`; `Offer.lowers` is `to_lowercase` compared with an ASCII word. -/
def Mechanism.parse (s : Str) : Option Mechanism :=
  if !validMechanism s then none
  else if Offer.lowers s "tls" then some .tls
  else if Offer.lowers s "digest" then some .digest
  else if Offer.lowers s "ipsec-ike" then some .ipsecIke
  else if Offer.lowers s "ipsec-man" then some .ipsecMan
  else some (.other s)

/-- security.rs 181-184 `SecurityEntry`. -/
structure Entry where
  mech : Mechanism
  params : BMap (Option Str)
  deriving DecidableEq, Repr

/-- security.rs 188-193 `SecurityEntry::new`. -/
def Entry.new (m : Mechanism) : Entry := ⟨m, []⟩

/-- security.rs 206-223 `set_param`. -/
def Entry.setParam (e : Entry) (name : Str) (value : Option Str) : Option Entry :=
  if e.params.length ≥ MAX_PARAMS_PER_ENTRY then none
  else if !validName name then none
  else if !value.all validValue then none
  else some { e with params := e.params.insert name value }

/-- security.rs 226-231 `get_param`: the first key, in the order of the map, that is the name in any case. -/
def Entry.getParam (e : Entry) (name : Str) : Option (Option Str) :=
  (e.params.find? (fun p => eqIgnoreCase p.1 name)).map (·.2)

/-- security.rs 685-692 `parse_q_value`. -/
def parseQ (F : Floats) (s : Str) : Option F32 :=
  match F.read s with
  | some (some q) => if validQ q then some q else none
  | _ => none

/-- `str::trim_end_matches(c)`. -/
def trimEndMatches (c : Char) (s : Str) : Str := (s.reverse.dropWhile (· == c)).reverse

/-- security.rs 237-250 `set_preference`, for a finite value. -/
def Entry.setPreference (F : Floats) (e : Entry) (q : F32) : Option Entry :=
  if !validQ q then none
  else
    let t := if q.val = 1 then ['1'] else trimEndMatches '.' (trimEndMatches '0' (F.fixed3 q))
    e.setParam ['q'] (some t)

/-- security.rs 253-257 `preference`. -/
def Entry.preference (F : Floats) (e : Entry) : Option F32 :=
  match e.getParam ['q'] with
  | some (some s) => parseQ F s
  | _ => none

/-- `preference().unwrap_or(0.001)` (security.rs 346, 414, 434, 435). -/
def Entry.weight (F : Floats) (e : Entry) : F32 :=
  match e.preference F with
  | some q => q
  | none => ⟨F.rnd (1 / 1000), false⟩

/-- security.rs 260-262 `tls`. -/
def Entry.tls : Entry := .new .tls

/-- security.rs 265-272 `digest`. -/
def Entry.digest (algorithm : Str) (qop : Option Str) : Option Entry :=
  match (Entry.new .digest).setParam "d-alg".toList (some algorithm) with
  | none => none
  | some e =>
    match qop with
    | some q => e.setParam "d-qop".toList (some q)
    | none => some e

/-- security.rs 275-281 `ipsec_ike`. -/
def Entry.ipsecIke (algorithm protocol mode : Str) : Option Entry :=
  match (Entry.new .ipsecIke).setParam "algorithm".toList (some algorithm) with
  | none => none
  | some e =>
    match e.setParam "protocol".toList (some protocol) with
    | none => none
    | some e => e.setParam "mode".toList (some mode)

/-- One parameter of security.rs 287-293. -/
def paramText (p : Str × Option Str) : Str :=
  match p.2 with
  | some v => ';' :: p.1 ++ '=' :: v
  | none => ';' :: p.1

/-- security.rs 284-296 `Display` of an entry. -/
def Entry.show (e : Entry) : Str := e.mech.text ++ (e.params.map paramText).flatten

/-- security.rs 354-364 (and 448-458, 515-525) `Display` of a header. -/
def showEntries : List Entry → Str
  | [] => []
  | [e] => e.show
  | e :: es => e.show ++ ", ".toList ++ showEntries es

/-- security.rs 310-318 (and 378-386, 472-480) `new` of the headers. -/
def newHeader (es : List Entry) : Option (List Entry) := if es.length > MAX_ENTRIES then none else some es

/-- `b` comes strictly before `a` for `qb.total_cmp(&qa)` (security.rs 345-349, 413-417). -/
def heavier (F : Floats) (b a : Entry) : Bool :=
  decide ((a.weight F).val < (b.weight F).val) ||
    (decide ((a.weight F).val = (b.weight F).val) && (a.weight F).minus && !(b.weight F).minus)

/-- `slice::sort_by` with this comparison, as an insertion sort (both are stable). -/
def place (F : Floats) (x : Entry) : List Entry → List Entry
  | [] => [x]
  | y :: ys => if heavier F y x then y :: place F x ys else x :: y :: ys

/-- security.rs 343-351, 411-419 `sorted_by_preference`. -/
def sortedByPreference (F : Floats) : List Entry → List Entry
  | [] => []
  | x :: xs => place F x (sortedByPreference F xs)

/-- The loop of security.rs 428-442, with the best so far. -/
def bestLoop (F : Floats) (client : List Entry) : List Entry → Option (Entry × Rat) → Option (Entry × Rat)
  | [], best => best
  | s :: ss, best =>
    match client.find? (fun c => decide (c.mech = s.mech)) with
    | none => bestLoop F client ss best
    | some c =>
      let q := F.rnd ((s.weight F).val * (c.weight F).val)
      match best with
      | none => bestLoop F client ss (some (s, q))
      | some (b, x) => if x < q then bestLoop F client ss (some (s, q)) else bestLoop F client ss (some (b, x))

/-- security.rs 425-445 `find_best_match`. -/
def findBestMatch (F : Floats) (server client : List Entry) : Option Entry := (bestLoop F client server none).map (·.1)

/-- security.rs 508-512 `matches`. -/
def verifies (verify : List Entry) (server : Entry) : Bool := verify.any (fun e => decide (e.mech = server.mech))

/-! ## Reading the headers -/

/-- security.rs 617-653 `split_unquoted`, with what has been read of the current part. -/
def splitUnquoted (sep : Char) : Str → (cur : Str) → (inQ esc : Bool) → List Str
  | [], cur, _, _ => [cur]
  | ch :: t, cur, inQ, esc =>
    if esc then splitUnquoted sep t (cur ++ [ch]) inQ false
    else if inQ && ch == '\\' then splitUnquoted sep t (cur ++ [ch]) inQ true
    else if ch == '"' then splitUnquoted sep t (cur ++ [ch]) (!inQ) false
    else if ch == sep && !inQ then cur :: splitUnquoted sep t [] inQ false
    else splitUnquoted sep t (cur ++ [ch]) inQ false

/-- security.rs 655-683 `split_once_unquoted`. -/
def splitOnceUnquoted (sep : Char) : Str → (inQ esc : Bool) → Option (Str × Str)
  | [], _, _ => none
  | ch :: t, inQ, esc =>
    if esc then (splitOnceUnquoted sep t inQ false).map (fun p => (ch :: p.1, p.2))
    else if inQ && ch == '\\' then (splitOnceUnquoted sep t inQ true).map (fun p => (ch :: p.1, p.2))
    else if ch == '"' then (splitOnceUnquoted sep t (!inQ) false).map (fun p => (ch :: p.1, p.2))
    else if ch == sep && !inQ then some ([], t)
    else (splitOnceUnquoted sep t inQ false).map (fun p => (ch :: p.1, p.2))

/-- security.rs 590-612: the loop over the parameters of an entry. -/
def readParams (F : Floats) : List Str → Entry → Option Entry
  | [], e => some e
  | p :: ps, e =>
    if (trim p).isEmpty then readParams F ps e
    else
      match splitOnceUnquoted '=' (trim p) false false with
      | some (k, v) =>
        if eqIgnoreCase (trim k) ['q'] then
          if (parseQ F (trim v)).isSome then
            match e.setParam (trim k) (some (trim v)) with
            | none => none
            | some e => readParams F ps e
          else readParams F ps e
        else
          match e.setParam (trim k) (some (trim v)) with
          | none => none
          | some e => readParams F ps e
      | none =>
        match e.setParam (trim p) none with
        | none => none
        | some e => readParams F ps e

/-- security.rs 573-615 `parse_single_security_entry`; there is always a first part. -/
def parseEntry (F : Floats) (s : Str) : Option Entry :=
  match splitUnquoted ';' s [] false false with
  | [] => none
  | m :: ps =>
    if (trim m).isEmpty then none
    else
      match Mechanism.parse (trim m) with
      | none => none
      | some mech => readParams F ps (.new mech)

/-- security.rs 549-561: the loop over the parts of a header, with the entries read so far. -/
def readEntries (F : Floats) : List Str → List Entry → Option (List Entry)
  | [], es => some es
  | p :: ps, es =>
    if es.length ≥ MAX_ENTRIES then none
    else if (trim p).isEmpty then readEntries F ps es
    else
      match parseEntry F (trim p) with
      | none => none
      | some e => readEntries F ps (es ++ [e])

/-- security.rs 546-570 `parse_security_entries` and 528-543 `parse_security_client`, `parse_security_server`,
`parse_security_verify`. -/
def parseHeader (F : Floats) (s : Str) : Option (List Entry) :=
  match readEntries F (splitUnquoted ',' s [] false false) [] with
  | none => none
  | some [] => none
  | some (e :: es) => newHeader (e :: es)

end Siphon.SecAgree
