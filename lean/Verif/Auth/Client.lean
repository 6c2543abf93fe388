import Verif.Auth.Model
import Verif.Base.Num
/-!
# Digest authentication, client side, and Authentication-Info

Model of `DigestClient` and `AuthInfo` (`crates/sip-auth/src/lib.rs` 1461-1937) and of the user
agent client's handling of a challenge (`crates/sip-uac/src/lib.rs` 853-990, 3399-3497).  Random
tokens are inputs.
-/
namespace Siphon.Auth

/-- sip-auth lib.rs 1709-1715 `DigestClient`. -/
structure Client where
  username : Str
  password : Str
  nc : Nat
  deriving DecidableEq

/-- sip-auth lib.rs 1764-1770 `new`. -/
def Client.new (user pw : Str) : Client := { username := user, password := pw, nc := 0 }

/-- The hexadecimal digit for `d < 16`. -/
def hexChar (d : Nat) : Char := if d < 10 then Char.ofNat (48 + d) else Char.ofNat (87 + d)

/-- `format!("{:08x}", n)` for a `u32`: always eight digits. -/
def hex8 (n : Nat) : Str :=
  [hexChar (n / 268435456 % 16), hexChar (n / 16777216 % 16), hexChar (n / 1048576 % 16),
   hexChar (n / 65536 % 16), hexChar (n / 4096 % 16), hexChar (n / 256 % 16), hexChar (n / 16 % 16),
   hexChar (n % 16)]

/-- sip-auth lib.rs 1774-1849 `generate_authorization`; `cnonce` is the random token drawn. -/
def Client.generateAuthorization (H : Hash) (c : Client) (m : Method) (uri realm nonce : Str)
    (alg : Algorithm) (qop : Option Qop) (opq : Option Str) (body : Bytes) (cnonce : Str) : Str × Client :=
  let nc := min (c.nc + 1) U32_MAX
  let ncStr := hex8 nc
  let h := fun s : Str => H alg.base (utf8 s)
  let baseHa1 := h (c.username ++ [':'] ++ realm ++ [':'] ++ c.password)
  let ha1 := if alg.isSess then h (baseHa1 ++ [':'] ++ nonce ++ [':'] ++ cnonce) else baseHa1
  let ha2 := match qop with
    | some .authInt => h (m.asStr ++ [':'] ++ uri ++ [':'] ++ H alg.base body)
    | _ => h (m.asStr ++ [':'] ++ uri)
  let response := match qop with
    | some q => h (ha1 ++ [':'] ++ nonce ++ [':'] ++ ncStr ++ [':'] ++ cnonce ++ [':'] ++ q.asStr ++ [':'] ++ ha2)
    | none => h (ha1 ++ [':'] ++ nonce ++ [':'] ++ ha2)
  let auth := "Digest username=\"".toList ++ c.username ++ "\", realm=\"".toList ++ realm
    ++ "\", nonce=\"".toList ++ nonce ++ "\", uri=\"".toList ++ uri ++ "\", response=\"".toList
    ++ response ++ "\", algorithm=".toList ++ alg.asStr
  let auth := match qop with
    | some q => auth ++ ", qop=".toList ++ q.asStr ++ ", nc=".toList ++ ncStr ++ ", cnonce=\"".toList
        ++ cnonce ++ "\"".toList
    | none => auth
  let auth := match opq with
    | some o => auth ++ ", opaque=\"".toList ++ o ++ "\"".toList
    | none => auth
  (auth, { c with nc := nc })

/-! ## The user agent's challenge parser -/

/-- Ways a call can fail: `err` is `Err(..)`, `panic` is an `unwrap` or slice panic. -/
inductive Fail | err | panic
  deriving DecidableEq, Repr

/-- sip-uac lib.rs 3445-3470 `split_auth_params`: pieces between unquoted commas, trimmed, without
the empty ones.  `cur` is `input[start..idx]`. -/
def splitAuthParams : Str → (cur : Str) → (inQ : Bool) → List Str
  | [], cur, _ => if (trim cur).isEmpty then [] else [trim cur]
  | c :: cs, cur, inQ =>
    if c = '"' then splitAuthParams cs (cur ++ [c]) (!inQ)
    else if c = ',' ∧ inQ = false then
      if (trim cur).isEmpty then splitAuthParams cs [] inQ
      else trim cur :: splitAuthParams cs [] inQ
    else splitAuthParams cs (cur ++ [c]) inQ

/-- sip-uac lib.rs 3402-3407: text after the first `digest`, compared without ASCII case. -/
def afterDigest : Str → Option Str
  | [] => none
  | c :: cs =>
    if "digest".toList.isPrefixOf (lower (c :: cs)) then some ((c :: cs).drop 6) else afterDigest cs

/-- sip-uac lib.rs 3431-3436: remove surrounding quotes.  A value consisting of one quote character
makes the slice `value[1..0]` panic. -/
def unquote (v : Str) : Except Fail Str :=
  if v.head? = some '"' ∧ v.getLast? = some '"' then
    if v.length < 2 then .error .panic else .ok (v.drop 1).dropLast
  else .ok v

/-- sip-uac lib.rs 51 `MAX_AUTH_PARAMS`. -/
def UAC_MAX_AUTH_PARAMS : Nat := 20

/-- sip-uac lib.rs 3410-3441: the loop over the parameters.  A `HashMap` insert overwrites. -/
def challengeGo : List Str → (count : Nat) → Tbl Str Str → Except Fail (Tbl Str Str)
  | [], _, acc => .ok acc
  | p :: ps, count, acc =>
    if count ≥ UAC_MAX_AUTH_PARAMS then .error .err
    else
      let t := trim p
      let t := trimStart (if "Digest".toList.isPrefixOf t then t.drop 6 else t)
      match splitOnce '=' t with
      | none => challengeGo ps count acc
      | some (k, v) =>
        match unquote (trim v) with
        | .error e => .error e
        | .ok v => challengeGo ps (count + 1) (acc.insert (trim k) v)

/-- sip-uac lib.rs 3399-3443 `parse_www_authenticate`. -/
def parseWwwAuthenticate (value : Str) : Except Fail (Tbl Str Str) :=
  match afterDigest (trim value) with
  | none => .error .err
  | some rest => challengeGo (splitAuthParams (trimStart rest) [] false) 0 []

/-- sip-uac lib.rs 3474-3486: the parameters of a Via after the first `;`, with `branch` replaced. -/
def viaParams (branch : Str) : List Str → List Str × Bool
  | [] => ([], false)
  | p :: ps =>
    let (r, found) := viaParams branch ps
    if "branch=".toList.isPrefixOf (lower (trim p)) then (("branch=".toList ++ branch) :: r, true)
    else if (trim p).isEmpty then (r, found) else (trim p :: r, found)

/-- `[String]::join(";")` preceded by the base, sip-uac lib.rs 3487-3496. -/
def joinSemi (base : Str) (ps : List Str) : Str := ps.foldl (fun acc p => acc ++ [';'] ++ p) base

/-- sip-uac lib.rs 3472-3497 `replace_via_branch`. -/
def replaceViaBranch (via branch : Str) : Str :=
  match splitChar ';' via with
  | [] => []
  | b :: ps =>
    let (params, found) := viaParams branch ps
    joinSemi (trim b) (if found then params else params ++ ["branch=".toList ++ branch])

/-- sip-uac lib.rs 945-976: copying the original headers, with a new branch in every `Via` and the
first parsable `CSeq` incremented.  `unwrap` on a refused push and `+= 1` on `u32::MAX` are panics
(the latter wraps in a release build). -/
def copyWithCseq (branch : Str) : List Header → (done : Bool) → Headers → Except Fail Headers
  | [], _, acc => .ok acc
  | h :: hs, done, acc =>
    let push := fun (n v : Str) (done : Bool) =>
      match acc.push n v with
      | .error _ => .error .panic
      | .ok acc => copyWithCseq branch hs done acc
    if h.name = "Via".toList then push "Via".toList (replaceViaBranch h.value branch) done
    else if h.name = "CSeq".toList ∧ done = false then
      match splitOnce ' ' h.value with
      | some (num, meth) =>
        match parseDec U32_MAX num with
        | some n =>
          if n + 1 > U32_MAX then .error .panic
          else push "CSeq".toList (showNat (n + 1) ++ [' '] ++ meth) true
        | none => push h.name h.value done
      | none => push h.name h.value done
    else push h.name h.value done

/-- sip-uac lib.rs 909-918: the offered qop, `auth-int` preferred when both are listed. -/
def chosenQop (q : Option Str) : Option Qop :=
  match q with
  | none => none
  | some q =>
    if hasInfix "auth-int".toList q then some .authInt
    else if hasInfix "auth".toList q then some .auth
    else none

/-- sip-uac lib.rs 904-907: algorithm of the challenge, MD5 when missing or unknown. -/
def chosenAlgorithm (a : Option Str) : Algorithm :=
  match a with
  | none => .md5
  | some a => match Algorithm.parse a with | some x => x | none => .md5

/-- sip-uac lib.rs 853-990 `create_authenticated_request(_with)`, for the configured digest client or
for one made from override credentials (the caller passes it in).  Returns the client with its
advanced count too. -/
def createAuthenticatedRequest (H : Hash) (c : Client) (orig : Request) (resp : Response)
    (cnonce branch : Str) : Except Fail (Request × Client) :=
  let isProxy := resp.code == 407
  match resp.headers.get (if isProxy then "Proxy-Authenticate".toList else "WWW-Authenticate".toList) with
  | none => .error .err
  | some raw =>
  match parseWwwAuthenticate raw with
  | .error e => .error e
  | .ok ch =>
  match ch.get "realm".toList, ch.get "nonce".toList with
  | some realm, some nonce =>
    let alg := chosenAlgorithm (ch.get "algorithm".toList)
    let qop := chosenQop (ch.get "qop".toList)
    let opq := ch.get "opaque".toList
    let (auth, c) := c.generateAuthorization H orig.method orig.uri realm nonce alg qop opq orig.body cnonce
    match copyWithCseq branch orig.headers.inner false Headers.empty with
    | .error e => .error e
    | .ok hs =>
      match hs.push (if isProxy then "Proxy-Authorization".toList else "Authorization".toList) auth with
      | .error _ => .error .panic
      | .ok hs =>
        match Request.new orig.method orig.uri hs orig.body with
        | .error _ => .error .err
        | .ok r => .ok (r, c)
  | _, _ => .error .err

/-! ## Authentication-Info -/

/-- sip-auth lib.rs 1461-1467 `AuthInfo`. -/
structure AuthInfo where
  qop : Option Qop
  rspauth : Str
  cnonce : Option Str
  nc : Option Str
  nextnonce : Option Str
  deriving DecidableEq

/-- sip-auth lib.rs 1478-1494 `to_header_value`. -/
def AuthInfo.toHeaderValue (a : AuthInfo) : Str :=
  (match a.qop with | some q => "qop=".toList ++ q.asStr ++ ", ".toList | none => [])
  ++ "rspauth=\"".toList ++ a.rspauth ++ "\"".toList
  ++ (match a.cnonce with | some c => ", cnonce=\"".toList ++ c ++ "\"".toList | none => [])
  ++ (match a.nc with | some n => ", nc=".toList ++ n | none => [])
  ++ (match a.nextnonce with | some n => ", nextnonce=\"".toList ++ n ++ "\"".toList | none => [])

/-- sip-auth lib.rs 1550-1585 `split_auth_info_params`. -/
def splitInfo : Str → (cur : Str) → (inQ esc : Bool) → List Str
  | [], cur, _, _ => if (trim cur).isEmpty then [] else [trim cur]
  | c :: cs, cur, inQ, esc =>
    if esc then splitInfo cs (cur ++ [c]) inQ false
    else if c = '\\' ∧ inQ = true then splitInfo cs (cur ++ [c]) inQ true
    else if c = '"' then splitInfo cs (cur ++ [c]) (!inQ) false
    else if c = ',' ∧ inQ = false then
      (if (trim cur).isEmpty then splitInfo cs [] inQ false
       else trim cur :: splitInfo cs [] inQ false)
    else splitInfo cs (cur ++ [c]) inQ false

/-- sip-auth lib.rs 1539-1546 `strip_quotes`. -/
def stripQuotes (s : Str) : Str :=
  let t := trim s
  if t.length ≥ 2 ∧ t.head? = some '"' ∧ t.getLast? = some '"' then (t.drop 1).dropLast else t

/-- The five variables of `AuthInfo::parse` (1503-1507). -/
structure InfoAcc where
  qop : Option Qop := none
  rspauth : Option Str := none
  cnonce : Option Str := none
  nc : Option Str := none
  nextnonce : Option Str := none
  deriving DecidableEq

/-- sip-auth lib.rs 1509-1524: one parameter. -/
def InfoAcc.add (a : InfoAcc) (raw : Str) : InfoAcc :=
  match splitOnce '=' raw with
  | none => a
  | some (k, v) =>
    let key := lower (trim k)
    let val := stripQuotes (trim v)
    if key = "qop".toList then { a with qop := Qop.parse val }
    else if key = "rspauth".toList then { a with rspauth := some val }
    else if key = "cnonce".toList then { a with cnonce := some val }
    else if key = "nc".toList then { a with nc := some val }
    else if key = "nextnonce".toList then { a with nextnonce := some val }
    else a

/-- sip-auth lib.rs 1502-1534 `AuthInfo::parse`. -/
def AuthInfo.parse (value : Str) : Option AuthInfo :=
  let a := (splitInfo value [] false false).foldl InfoAcc.add {}
  match a.rspauth with
  | none => none
  | some r => some { qop := a.qop, rspauth := r, cnonce := a.cnonce, nc := a.nc, nextnonce := a.nextnonce }

/-- sip-auth lib.rs 1664-1697 `compute_rspauth`. -/
def Server.computeRspauth (H : Hash) (s : Server) (user pw uri nonce nc cnonce : Str) (qop : Qop)
    (body : Bytes) : Str :=
  let ha1 := s.applySess H (s.computeHa1 H user pw) nonce (some cnonce)
  let ha2 := match qop with
    | .auth => H s.algorithm.base (utf8 ([':'] ++ uri))
    | .authInt => H s.algorithm.base (utf8 ([':'] ++ uri ++ [':'] ++ H s.algorithm.base body))
  H s.algorithm.base (utf8 (ha1 ++ [':'] ++ nonce ++ [':'] ++ nc ++ [':'] ++ cnonce ++ [':'] ++ qop.asStr ++ [':'] ++ ha2))

/-- sip-auth lib.rs 1609-1654 `build_auth_info`. -/
def Server.buildAuthInfo (H : Hash) (s : Server) (req : Request) (respBody : Bytes)
    (nextnonce : Option Str) (now : Nat) : Except AuthErr (Option AuthInfo) × Server :=
  match s.prepareDigest H req req.headers now with
  | (.error e, s) => (.error e, s)
  | (.ok none, s) => (.ok none, s)
  | (.ok (some p), s) =>
    match p.qop, p.cnonce, p.ncRaw with
    | some q, some c, some n =>
      match s.store p.username p.realm with
      | none => (.error .unknownUser, s)
      | some pw =>
        (.ok (some { qop := some q, rspauth := s.computeRspauth H p.username pw p.uri p.nonce n c q respBody,
                     cnonce := some c, nc := some n, nextnonce := nextnonce }), s)
    | _, _, _ => (.ok none, s)

/-- sip-auth lib.rs 1881-1937 `verify_auth_info`; `none` is any `Err`. -/
def Client.verifyAuthInfo (H : Hash) (c : Client) (info : AuthInfo) (realm uri nonce : Str)
    (alg : Algorithm) (respBody : Bytes) : Option (Option Str) :=
  match info.qop, info.cnonce, info.nc with
  | some q, some cn, some n =>
    let h := fun s : Str => H alg.base (utf8 s)
    let baseHa1 := h (c.username ++ [':'] ++ realm ++ [':'] ++ c.password)
    let ha1 := if alg.isSess then h (baseHa1 ++ [':'] ++ nonce ++ [':'] ++ cn) else baseHa1
    let ha2 := match q with
      | .auth => h ([':'] ++ uri)
      | .authInt => h ([':'] ++ uri ++ [':'] ++ H alg.base respBody)
    let expected := h (ha1 ++ [':'] ++ nonce ++ [':'] ++ n ++ [':'] ++ cn ++ [':'] ++ q.asStr ++ [':'] ++ ha2)
    if expected = info.rspauth then some info.nextnonce else none
  | _, _, _ => none

end Siphon.Auth
