import Verif.Identity.Json
/-!
# Caller identity (C108 to C110)

Model of `crates/sip-identity/src/passport.rs`, `header.rs`, `sign.rs`, `verify.rs` and `chain.rs`.  The cryptography (`ring`,
`webpki`) is a parameter.
-/
namespace Siphon.Ident

/-- passport.rs 22-32 `AttestationLevel`. -/
inductive Attest | A | B | C
  deriving DecidableEq, Repr

/-- passport.rs 36-46 `AttestationLevel::parse`. -/
def Attest.parse (s : Str) : Option Attest :=
  if s = "A".toList then some .A
  else if s = "B".toList then some .B
  else if s = "C".toList then some .C
  else none

/-- passport.rs 49-55 `AttestationLevel::as_str`. -/
def Attest.asStr : Attest → Str
  | .A => "A".toList
  | .B => "B".toList
  | .C => "C".toList

/-- passport.rs 60-70 `PassportHeader`. -/
structure PHeader where
  alg : Str
  typ : Option Str
  ppt : Option Str
  x5u : Str
  deriving DecidableEq, Repr

/-- passport.rs 74-85 `PassportClaims`. -/
structure Claims where
  attest : Option Attest
  origTn : Option Str
  destTns : List Str
  iat : Option Int
  origid : Option Str
  deriving DecidableEq, Repr

/-- passport.rs 89-101 `Passport`. -/
structure Passport where
  header : PHeader
  claims : Claims
  signingInput : Bytes
  signature : Bytes
  deriving DecidableEq, Repr

/-- error.rs: `IdentityError`, without the texts. -/
inductive IdErr
  | headerTooLong (actual : Nat)
  | emptyToken
  | malformedJws (parts : Nat)
  | base64
  | json
  | missingField
  | invalidField
  | invalidParam
  deriving DecidableEq, Repr

/-- passport.rs 106-114 `RawHeader`: algorithm, type, extension, certificate. -/
def rawHeader (j : Json) : Option (Str × Option Str × Option Str × Option Str) :=
  match structFields ["alg", "typ", "ppt", "x5u"] j with
  | some [some alg, typ, ppt, x5u] => do
    let alg ← asString alg
    let typ ← asOptString typ
    let ppt ← asOptString ppt
    let x5u ← asOptString x5u
    some (alg, typ, ppt, x5u)
  | _ => none

/-- passport.rs 131-134 `Orig`. -/
def rawOrig : Option Json → Option (Option (Option Str))
  | none => some none
  | some .null => some none
  | some j =>
    match structFields ["tn"] j with
    | some [tn] => (asOptString tn).map some
    | _ => none

/-- passport.rs 137-140 `Dest`. -/
def rawDest : Option Json → Option (Option (Option (List Str)))
  | none => some none
  | some .null => some none
  | some j =>
    match structFields ["tn"] j with
    | some [tn] => (asOptStrings tn).map some
    | _ => none

/-- passport.rs 117-128 `RawClaims`, with 180-186: the attestation as text and the rest as it is kept. -/
def rawClaims (j : Json) : Option (Option Str × Option Str × List Str × Option Int × Option Str) :=
  match structFields ["attest", "orig", "dest", "iat", "origid"] j with
  | some [attest, orig, dest, iat, origid] => do
    let attest ← asOptString attest
    let orig ← rawOrig orig
    let dest ← rawDest dest
    let iat ← asOptI64 iat
    let origid ← asOptString origid
    some (attest, orig.bind id, (match dest.bind id with | some l => l | none => []), iat, origid)
  | _ => none

/-- passport.rs 147-199 `Passport::decode`. -/
def Passport.decode (token : Str) : Except IdErr Passport :=
  match splitChar '.' token with
  | [p, c, s] =>
    match b64Decode p with
    | none => .error .base64
    | some hj =>
      match b64Decode c with
      | none => .error .base64
      | some cj =>
        match b64Decode s with
        | none => .error .base64
        | some sig =>
          match (readJson hj).bind rawHeader with
          | none => .error .json
          | some (alg, typ, ppt, x5u) =>
            match (readJson cj).bind rawClaims with
            | none => .error .json
            | some (attest, orig, dest, iat, origid) =>
              match x5u with
              | none => .error .missingField
              | some x5u =>
                let make (a : Option Attest) : Except IdErr Passport :=
                  .ok ⟨⟨alg, typ, ppt, x5u⟩, ⟨a, orig, dest, iat, origid⟩, utf8 p ++ 46 :: utf8 c, sig⟩
                match attest with
                | none => make none
                | some t =>
                  match Attest.parse t with
                  | none => .error .invalidField
                  | some a => make (some a)
  | ps => .error (.malformedJws ps.length)

/-- header.rs 23 -/
def MAX_HEADER_LEN : Nat := 8192

/-- header.rs 27-40 `IdentityHeader`. -/
structure IdHeader where
  passport : Passport
  info : Option Str
  alg : Option Str
  ppt : Option Str
  rawToken : Str
  deriving DecidableEq, Repr

/-- `strip_prefix(a).and_then(strip_suffix(b))`. -/
def between (a b : Char) : Str → Option Str
  | [] => none
  | c :: t => if c = a ∧ t.getLast? = some b then some t.dropLast else none

/-- header.rs 98-104 `strip_angle_brackets`; `none` is the error. -/
def stripBrackets (s : Str) : Option Str := (between '<' '>' (trim s)).map trim

/-- header.rs 107-111 `unquote`. -/
def unquote (s : Str) : Str :=
  match between '"' '"' s with
  | some t => t
  | none => s

/-- The parameters read so far: `info`, `alg`, `ppt`. -/
abbrev IdParams := Option Str × Option Str × Option Str

/-- header.rs 65-83: the loop over the parameters; `none` is the error. -/
def readParams : List Str → IdParams → Option IdParams
  | [], ps => some ps
  | seg :: t, (info, alg, ppt) =>
    match splitOnce '=' (trim seg) with
    | none => readParams t (info, alg, ppt)
    | some (k, v) =>
      let key := lower (trim k)
      let v := trim v
      if key = "info".toList then
        match stripBrackets v with
        | none => none
        | some u => readParams t (some u, alg, ppt)
      else if key = "alg".toList then readParams t (info, some (unquote v), ppt)
      else if key = "ppt".toList then readParams t (info, alg, some (unquote v))
      else readParams t (info, alg, ppt)

/-- header.rs 46-93 `IdentityHeader::parse`.  An empty parameter has no `=`. -/
def IdHeader.parse (value : Str) : Except IdErr IdHeader :=
  if utf8Len value > MAX_HEADER_LEN then .error (.headerTooLong (utf8Len value))
  else
    match splitChar ';' value with
    | [] => .error .emptyToken
    | t :: segs =>
      let token := trim t
      if token.isEmpty then .error .emptyToken
      else
        match Passport.decode token with
        | .error e => .error e
        | .ok p =>
          match readParams segs (none, none, none) with
          | none => .error .invalidParam
          | some (info, alg, ppt) => .ok ⟨p, info, alg, ppt, token⟩

/-! ## Signing -/

/-- sign.rs 58-73 `PassportParams`. -/
structure Params where
  x5u : Str
  attest : Attest
  origTn : Str
  destTns : List Str
  iat : Int
  origid : Option Str
  deriving DecidableEq, Repr

/-- Values with commas between them. -/
def commas : List Str → Str
  | [] => []
  | [v] => v
  | v :: t => v ++ ',' :: commas t

/-- One member of a JSON object. -/
def member (k : String) (v : Str) : Str := writeStr k.toList ++ ':' :: v

/-- A JSON object. -/
def object (ms : List Str) : Str := '{' :: commas ms ++ ['}']

/-- sign.rs 75-80, 137-142: the protected header as `serde_json` writes it. -/
def headerJson (x5u : Str) : Str :=
  object [member "alg" (writeStr "ES256".toList), member "ppt" (writeStr "shaken".toList), member "typ" (writeStr "passport".toList),
    member "x5u" (writeStr x5u)]

/-- sign.rs 83-100, 143-153: the claims as `serde_json` writes them. -/
def claimsJson (p : Params) : Str :=
  object ([member "attest" (writeStr p.attest.asStr),
    member "dest" (object [member "tn" ('[' :: commas (p.destTns.map writeStr) ++ [']'])]),
    member "iat" (writeInt p.iat), member "orig" (object [member "tn" (writeStr p.origTn)])] ++
    (match p.origid with | some o => [member "origid" (writeStr o)] | none => []))

/-- sign.rs 154-162: what is signed. -/
def signingText (p : Params) : Str := b64Encode (utf8 (headerJson p.x5u)) ++ '.' :: b64Encode (utf8 (claimsJson p))

/-- sign.rs 126-173 `sign`: `none` is an error.  `sig` is the result of `EcdsaKeyPair::sign` for the bytes it is given, `none` where
it fails. -/
def sign (p : Params) (sig : Bytes → Option Bytes) : Option Str :=
  if p.destTns.isEmpty then none
  else if p.origTn.isEmpty then none
  else (sig (utf8 (signingText p))).map (fun s => signingText p ++ '.' :: b64Encode s)

/-- sign.rs 115-117 `SignedPassport::identity_header_value`. -/
def headerValue (token x5u : Str) : Str := token ++ ";info=<".toList ++ x5u ++ ">;alg=ES256;ppt=shaken".toList

/-! ## Verifying -/

/-- verify.rs 32-49 `VerifyError`, without the texts. -/
inductive VErr
  | unsupportedAlg
  | malformedKey
  | signatureInvalid
  | certParse
  | chainInvalid
  deriving DecidableEq, Repr

/-- verify.rs 82-95 `verify_signature`.  `ok key message signature` is the answer of `ring` for `ECDSA_P256_SHA256_FIXED`. -/
def Passport.verifySignature (ok : Bytes → Bytes → Bytes → Bool) (p : Passport) (key : Bytes) : Except VErr Unit :=
  if p.header.alg ≠ "ES256".toList then .error .unsupportedAlg
  else if key.length ≠ 65 ∨ key.head? ≠ some 4 then .error .malformedKey
  else if ok key p.signingInput p.signature then .ok ()
  else .error .signatureInvalid

/-- chain.rs 144-147: leading zero bytes are dropped, but not the last byte. -/
def dropZeros : Bytes → Bytes
  | [] => []
  | [b] => [b]
  | b :: t => if b = 0 then dropZeros t else b :: t

/-- chain.rs 143-159 `der_unsigned_integer`. -/
def derInt (be : Bytes) : Bytes :=
  match dropZeros be with
  | [] => []
  | b :: t =>
    if b.toNat / 128 % 2 = 1 then 2 :: UInt8.ofNat (t.length + 2) :: 0 :: b :: t
    else 2 :: UInt8.ofNat (t.length + 1) :: b :: t

/-- chain.rs 127-138 `jose_es256_to_der`. -/
def joseToDer (sig : Bytes) : Option Bytes :=
  if sig.length ≠ 64 then none
  else
    let body := derInt (sig.take 32) ++ derInt (sig.drop 32)
    some (0x30 :: UInt8.ofNat body.length :: body)

/-- What `webpki` answers: can a certificate be read, can a trust anchor be made of one, does the leaf chain to an anchor at a
time, and does the key of the leaf verify a message with a DER signature. -/
structure WebPki where
  leaf : Bytes → Bool
  anchor : Bytes → Bool
  chain : Bytes → List Bytes → List Bytes → Nat → Bool
  verify : Bytes → Bytes → Bytes → Bool

/-- chain.rs 62-119 `verify_with_chain`. -/
def Passport.verifyWithChain (w : WebPki) (p : Passport) (ee : Bytes) (intermediates anchors : List Bytes) (now : Nat) :
    Except VErr Unit :=
  if p.header.alg ≠ "ES256".toList then .error .unsupportedAlg
  else if !w.leaf ee then .error .certParse
  else if !anchors.all w.anchor then .error .certParse
  else if !w.chain ee intermediates anchors now then .error .chainInvalid
  else
    match joseToDer p.signature with
    | none => .error .signatureInvalid
    | some d => if w.verify ee p.signingInput d then .ok () else .error .signatureInvalid

end Siphon.Ident
