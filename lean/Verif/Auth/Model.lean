import Verif.Auth.Params
import Verif.RateLimit.Model
import Verif.Base.Sort
/-!
# Digest authentication, server side

Model of `crates/sip-auth/src/lib.rs` (non-test part).  Simplifications, all stated at the
definition concerned:
* the hash functions (MD5, SHA-256, SHA-512, SHA-512 truncated) are an arbitrary function
  `Hash` from bytes to text; every theorem holds for all of them;
* random tokens are inputs of the functions that draw them;
* `Instant`s are nanoseconds, each call reads the clock once;
* log lines are dropped, error messages are an enumeration.
-/
namespace Siphon.Auth

/-- The four hash functions used (lib.rs 1249-1268): any function from bytes to a string. -/
inductive HashFn | md5 | sha256 | sha512 | sha512_256
  deriving DecidableEq, Repr
abbrev Hash := HashFn → Bytes → Str

/-- lib.rs 295-308 `DigestAlgorithm`. -/
inductive Algorithm
  | md5 | md5Sess | sha256 | sha256Sess | sha512 | sha512Sess | sha512_256 | sha512_256Sess
  deriving DecidableEq, Repr

/-- lib.rs 311-322 `as_str`. -/
def Algorithm.asStr : Algorithm → Str
  | .md5 => "MD5".toList
  | .md5Sess => "MD5-sess".toList
  | .sha256 => "SHA-256".toList
  | .sha256Sess => "SHA-256-sess".toList
  | .sha512 => "SHA-512".toList
  | .sha512Sess => "SHA-512-sess".toList
  | .sha512_256 => "SHA-512-256".toList
  | .sha512_256Sess => "SHA-512-256-sess".toList

/-- lib.rs 324-340 `parse`. -/
def Algorithm.parse (s : Str) : Option Algorithm :=
  let u := upper s
  if u = "MD5".toList then some .md5
  else if u = "MD5-SESS".toList then some .md5Sess
  else if u = "SHA-256".toList then some .sha256
  else if u = "SHA-256-SESS".toList then some .sha256Sess
  else if u = "SHA-512".toList then some .sha512
  else if u = "SHA-512-SESS".toList then some .sha512Sess
  else if u = "SHA-512-256".toList then some .sha512_256
  else if u = "SHA-512-256-SESS".toList then some .sha512_256Sess
  else none

/-- lib.rs 345-353 `is_sess`. -/
def Algorithm.isSess : Algorithm → Bool
  | .md5Sess | .sha256Sess | .sha512Sess | .sha512_256Sess => true
  | _ => false

/-- lib.rs 359-368 `base`, as the hash function selected by `hash` (1249-1268 and 1851-1861). -/
def Algorithm.base : Algorithm → HashFn
  | .md5 | .md5Sess => .md5
  | .sha256 | .sha256Sess => .sha256
  | .sha512 | .sha512Sess => .sha512
  | .sha512_256 | .sha512_256Sess => .sha512_256

/-- lib.rs 380-383 `Qop`. -/
inductive Qop | auth | authInt
  deriving DecidableEq, Repr

/-- lib.rs 386-391 `Qop::as_str`. -/
def Qop.asStr : Qop → Str
  | .auth => "auth".toList
  | .authInt => "auth-int".toList

/-- lib.rs 393-399 `Qop::parse`. -/
def Qop.parse (s : Str) : Option Qop :=
  if lower s = "auth".toList then some .auth
  else if lower s = "auth-int".toList then some .authInt
  else none

/-- lib.rs 410-423. -/
def MAX_PARAM_USERNAME_LEN : Nat := 256
def MAX_PARAM_REALM_LEN : Nat := 256
def MAX_PARAM_NONCE_LEN : Nat := 128
def MAX_PARAM_URI_LEN : Nat := 2048
def MAX_PARAM_RESPONSE_LEN : Nat := 512
def MAX_PARAM_CNONCE_LEN : Nat := 256
def MAX_PARAM_NC_LEN : Nat := 8
def MAX_PARAM_OPAQUE_LEN : Nat := 256
def MAX_BODY_SIZE : Nat := 10 * 1024 * 1024
def MAX_VIA_HOST_LEN : Nat := 256
def MAX_NC_VALUE : Nat := 1000000
def MAX_NC_JUMP : Nat := 1000
def MAX_NONCE_COUNT : Nat := 10000
/-- 10 s in nanoseconds. -/
def DEFAULT_MAX_REQUEST_AGE : Nat := 10 * 1000000000

/-- lib.rs 425-433 `validate_param(..).is_ok()`. -/
def validParam (v : Str) (maxLen : Nat) : Bool :=
  if utf8Len v > maxLen then false
  else if v.contains '\x00' || v.contains '\n' || v.contains '\r' then false
  else true

/-! ## Nonces -/

/-- lib.rs 438-445 `Nonce` (its `value` is the key in the table). -/
structure Nonce where
  createdAt : Nat
  ttl : Nat
  lastNc : Nat
  lastHash : Option Str
  lastUsed : Nat
  deriving DecidableEq, Repr

/-- lib.rs 448-463 `Nonce::new`, without the random value. -/
def Nonce.new (ttl now : Nat) : Nonce :=
  { createdAt := now, ttl := ttl, lastNc := 0, lastHash := none, lastUsed := now }

/-- lib.rs 465-467 `is_valid`. -/
def Nonce.isValid (n : Nonce) (now : Nat) : Bool := now - n.createdAt ≤ n.ttl

/-- lib.rs 493-499: the bytes hashed to recognise a retransmission. -/
def requestText (m : Method) (uri : Str) (body : Bytes) : Bytes :=
  utf8 m.asStr ++ [58] ++ utf8 uri ++ [58] ++ body

/-- lib.rs 479-530 `validate_nc_with_request`. -/
def Nonce.validateNc (H : Hash) (n : Nonce) (nc : Nat) (m : Method) (uri : Str) (body : Bytes)
    (maxAge now : Nat) : Bool × Nonce :=
  if n.lastNc > 0 ∧ now - n.lastUsed > maxAge then (false, n)
  else
    let h := H .sha256 (requestText m uri body)
    if nc > n.lastNc then
      (true, { n with lastNc := nc, lastHash := some h, lastUsed := now })
    else if nc = n.lastNc then
      match n.lastHash with
      | some last => if last = h then (true, { n with lastUsed := now }) else (false, n)
      | none => (true, { n with lastHash := some h, lastUsed := now })
    else (false, n)

/-- lib.rs 565-570 `NonceManager`. -/
structure NonceMgr where
  nonces : Tbl Str Nonce
  ttl : Nat
  maxNonces : Nat
  maxAge : Nat
  deriving DecidableEq

/-- lib.rs 573-580 `new`. -/
def NonceMgr.new (ttl : Nat) : NonceMgr :=
  { nonces := [], ttl := ttl, maxNonces := MAX_NONCE_COUNT, maxAge := DEFAULT_MAX_REQUEST_AGE }

/-- lib.rs 670-672 `cleanup`. -/
def NonceMgr.cleanup (m : NonceMgr) (now : Nat) : NonceMgr :=
  { m with nonces := m.nonces.filter (fun p => p.2.isValid now) }

/-- creation time used as sort key (lib.rs 688-692); every key passed to it is in the table. -/
def NonceMgr.createdOf (m : NonceMgr) (k : Str) : Nat :=
  match m.nonces.get k with
  | some n => n.createdAt
  | none => 0

/-- lib.rs 684-698 `remove_oldest`: `order` is the (arbitrary) iteration order of the `DashMap`; the
sort is stable. -/
def NonceMgr.removeOldest (m : NonceMgr) (order : List Str → List Str) (count : Nat) : NonceMgr :=
  let sorted := sortBy m.createdOf (order m.nonces.keys)
  { m with nonces := (sorted.take count).foldl (fun t k => t.remove k) m.nonces }

/-- lib.rs 592-607 `generate`; `value` is the random token drawn by `Nonce::new`. -/
def NonceMgr.generate (m : NonceMgr) (order : List Str → List Str) (value : Str) (now : Nat) : NonceMgr :=
  let m1 :=
    if m.nonces.length ≥ m.maxNonces then
      let c := m.cleanup now
      if c.nonces.length ≥ c.maxNonces then c.removeOldest order (c.maxNonces / 10) else c
    else m
  { m1 with nonces := m1.nonces.insert value (Nonce.new m1.ttl now) }

/-- lib.rs 611-628 `verify_with_nc`. -/
def NonceMgr.verifyWithNc (H : Hash) (m : NonceMgr) (value : Str) (nc : Nat) (meth : Method)
    (uri : Str) (body : Bytes) (now : Nat) : Bool × NonceMgr :=
  match m.nonces.get value with
  | none => (false, m)
  | some n =>
    if !n.isValid now then (false, m)
    else
      let (ok, n') := n.validateNc H nc meth uri body m.maxAge now
      (ok, { m with nonces := m.nonces.update value (fun _ => n') })

/-- lib.rs 642-648 `is_stale`. -/
def NonceMgr.isStale (m : NonceMgr) (value : Str) (now : Nat) : Bool :=
  match m.nonces.get value with
  | some n => !n.isValid now
  | none => false

/-- lib.rs 659-667 `reuse_window_exceeded`. -/
def NonceMgr.reuseWindowExceeded (m : NonceMgr) (value : Str) (now : Nat) : Bool :=
  match m.nonces.get value with
  | some n => n.isValid now && decide (n.lastNc > 0) && decide (now - n.lastUsed > m.maxAge)
  | none => false

/-- largest `u32` -/
def U32_MAX : Nat := 4294967295

/-- lib.rs 674-681 `is_nc_jump_reasonable`. -/
def NonceMgr.jumpReasonable (m : NonceMgr) (value : Str) (nc : Nat) : Bool :=
  match m.nonces.get value with
  | some n => !(nc > min (n.lastNc + MAX_NC_JUMP) U32_MAX)
  | none => true

/-! ## Numbers in headers -/

/-- Value of a hexadecimal digit (`char::to_digit(16)`). -/
def hexVal (c : Char) : Option Nat :=
  if '0' ≤ c ∧ c ≤ '9' then some (c.toNat - 48)
  else if 'a' ≤ c ∧ c ≤ 'f' then some (c.toNat - 87)
  else if 'A' ≤ c ∧ c ≤ 'F' then some (c.toNat - 55)
  else none

/-- digits of `u32::from_str_radix(_, 16)` with overflow check. -/
def parseHexDigits : Str → Nat → Option Nat
  | [], acc => some acc
  | c :: cs, acc =>
    match hexVal c with
    | none => none
    | some d => if acc * 16 + d > U32_MAX then none else parseHexDigits cs (acc * 16 + d)

/-- `u32::from_str_radix(s, 16)` (lib.rs 973): an optional leading `+`, then digits. -/
def parseHexU32 (s : Str) : Option Nat :=
  match s with
  | [] => none
  | ['+'] => none
  | ['-'] => none
  | '+' :: rest => parseHexDigits rest 0
  | _ => parseHexDigits s 0

/-! ## Rate-limit key -/

/-- lib.rs 784-803 `extract_via_host`. -/
def extractViaHost (h : Str) : Option Str :=
  if h.isEmpty || utf8Len h > MAX_VIA_HOST_LEN then none
  else
    match h with
    | '[' :: rest =>
      match splitOnce ']' rest with
      | none => none
      | some (inner, _) => if inner.isEmpty then none else some inner
    | _ =>
      if h.count ':' = 1 then (splitOnce ':' h).map (·.1) else some h

/-- lib.rs 770-776: the value of the first `received=` parameter. -/
def findReceived : List Str → Option Str
  | [] => none
  | p :: ps =>
    if p.take 9 = "received=".toList then some (p.drop 9) else findReceived ps

/-- lib.rs 749-782 `extract_rate_limit_key`. -/
def extractRateLimitKey (hs : Headers) : Option Str :=
  match hs.get "Via".toList with
  | none => none
  | some via =>
    match splitWhitespace via with
    | _ :: hp :: _ =>
      if hp.isEmpty || utf8Len hp > MAX_VIA_HOST_LEN then none
      else
        let (host, params) := match splitOnce ';' hp with
          | some (a, b) => (a, b)
          | none => (hp, [])
        if !params.isEmpty then
          match findReceived (splitChar ';' params) with
          | some v => extractViaHost v
          | none => extractViaHost host
        else extractViaHost host
    | _ => none

/-! ## The authenticator -/

/-- lib.rs 818-827 `DigestAuthenticator`.  `store` is `CredentialStore::fetch` followed by
`password()` (181, 125-127): any function of user name and realm. -/
structure Server where
  realm : Str
  algorithm : Algorithm
  qop : Qop
  store : Str → Str → Option Str
  mgr : NonceMgr
  proxyAuth : Bool
  opaqueTok : Str
  limiter : Option (RateLimit.Config × RateLimit.Limiter)

/-- lib.rs 1039-1057 `new`, with the drawn opaque token. -/
def Server.new (realm opaqueTok : Str) (store : Str → Str → Option Str) : Server :=
  { realm := realm, algorithm := .sha256, qop := .auth, store := store,
    mgr := NonceMgr.new (300 * 1000000000), proxyAuth := false, opaqueTok := opaqueTok, limiter := none }

/-- lib.rs 257-268 `MemoryCredentialStore::fetch` over (username, password, realm) triples. -/
def memFetch (creds : List (Str × Str × Str)) (user realm : Str) : Option Str :=
  (creds.find? (fun c => c.1 == user && c.2.2 == realm)).map (·.2.1)

/-- Errors (`anyhow`) of verification, as an enumeration of their messages. -/
inductive AuthErr
  | bodyTooLarge | rateLimited | missingParam | badParam | badNc | unknownUser
  deriving DecidableEq, Repr

/-- lib.rs 805-814 `DigestParams`.  `qop`, `nc_raw` and `cnonce` are always present when
`prepare_digest` succeeds. -/
structure DigestParams where
  username : Str
  realm : Str
  nonce : Str
  uri : Str
  response : Str
  ncRaw : Option Str
  cnonce : Option Str
  qop : Option Qop
  deriving DecidableEq

/-- lib.rs 884-888 and 1108-1112. -/
def Server.credentialsHeader (s : Server) : Str :=
  if s.proxyAuth then "Proxy-Authorization".toList else "Authorization".toList

/-- lib.rs 877-884: the optional rate limiter; `false` means "rate limit exceeded". -/
def Server.checkLimit (s : Server) (hs : Headers) (now : Nat) : Bool × Server :=
  match s.limiter with
  | none => (true, s)
  | some (c, l) =>
    match extractRateLimitKey hs with
    | none => (true, s)
    | some k => let (ok, l') := l.check c k now; (ok, { s with limiter := some (c, l') })

/-- lib.rs 920-926: the algorithm named by the credentials, or the server's own. -/
def namedAlgorithm (own : Algorithm) (p : Option Str) : Option Algorithm :=
  match p with
  | some a => Algorithm.parse a
  | none => some own

/-- lib.rs 938-946: parameters that are optional but must be well formed when present. -/
def validOptParam (p : Option Str) (maxLen : Nat) : Bool :=
  match p with
  | some v => validParam v maxLen
  | none => true

/-- lib.rs 890-985, the part of `prepare_digest` that only reads the request: `error` is `Err`,
`ok none` is `Ok(None)`. -/
def Server.readCredentials (s : Server) (req : Request) (hs : Headers) :
    Except AuthErr (Option DigestParams) :=
  match hs.get s.credentialsHeader with
  | none => .ok none
  | some raw =>
  match parseAuthorization raw with
  | none => .ok none
  | some p =>
  if !eqIgnoreCase p.scheme "Digest".toList then .ok none
  else
  match p.param "username".toList, p.param "realm".toList, p.param "nonce".toList,
      p.param "uri".toList, p.param "response".toList with
  | some username, some realm, some nonce, some uri, some response =>
    if !(validParam username MAX_PARAM_USERNAME_LEN && validParam realm MAX_PARAM_REALM_LEN
        && validParam nonce MAX_PARAM_NONCE_LEN && validParam uri MAX_PARAM_URI_LEN
        && validParam response MAX_PARAM_RESPONSE_LEN) then .error .badParam
    else if namedAlgorithm s.algorithm (p.param "algorithm".toList) ≠ some s.algorithm then .ok none
    else
      let nc := p.param "nc".toList
      let cnonce := p.param "cnonce".toList
      let qop := (p.param "qop".toList).bind Qop.parse
      let opq := p.param "opaque".toList
      if !(validOptParam nc MAX_PARAM_NC_LEN && validOptParam cnonce MAX_PARAM_CNONCE_LEN
          && validOptParam opq MAX_PARAM_OPAQUE_LEN) then .error .badParam
      else if realm ≠ s.realm then .ok none
      else if uri ≠ req.uri then .ok none
      else if opq ≠ some s.opaqueTok then .ok none
      else if qop ≠ some s.qop then .ok none
      else if nc = none ∨ cnonce = none then .ok none
      else .ok (some { username := username, realm := realm, nonce := nonce, uri := uri,
                       response := response, ncRaw := nc, cnonce := cnonce, qop := qop })
  | _, _, _, _, _ => .error .missingParam

/-- lib.rs 872-1035 `prepare_digest`.  (The branch 1015-1020 for a missing nc is unreachable: 967
has already returned.) -/
def Server.prepareDigest (H : Hash) (s : Server) (req : Request) (hs : Headers) (now : Nat) :
    Except AuthErr (Option DigestParams) × Server :=
  if req.body.length > MAX_BODY_SIZE then (.error .bodyTooLarge, s)
  else
    let (admitted, s) := s.checkLimit hs now
    if !admitted then (.error .rateLimited, s)
    else
      match s.readCredentials req hs with
      | .error e => (.error e, s)
      | .ok none => (.ok none, s)
      | .ok (some p) =>
        match p.ncRaw with
        | none => (.ok none, s)
        | some ncText =>
          match parseHexU32 ncText with
          | none => (.error .badNc, s)
          | some nc =>
            if nc > MAX_NC_VALUE then (.ok none, s)
            else if !s.mgr.jumpReasonable p.nonce nc then (.ok none, s)
            else
              let (ok, mgr) := s.mgr.verifyWithNc H p.nonce nc req.method req.uri req.body now
              let s := { s with mgr := mgr }
              if !ok then (.ok none, s) else (.ok (some p), s)

/-! ### Digest computation -/

/-- lib.rs 1215-1220 `compute_ha1`. -/
def Server.computeHa1 (H : Hash) (s : Server) (user pw : Str) : Str :=
  H s.algorithm.base (utf8 (user ++ [':'] ++ s.realm ++ [':'] ++ pw))

/-- lib.rs 1229-1236 `apply_sess`. -/
def Server.applySess (H : Hash) (s : Server) (baseHa1 nonce : Str) (cnonce : Option Str) : Str :=
  if !s.algorithm.isSess then baseHa1
  else
    let c := match cnonce with | some c => c | none => []
    H s.algorithm.base (utf8 (baseHa1 ++ [':'] ++ nonce ++ [':'] ++ c))

/-- lib.rs 1238-1247 `compute_ha2`. -/
def Server.computeHa2 (H : Hash) (s : Server) (m : Method) (uri : Str) (body : Bytes) : Str :=
  match s.qop with
  | .auth => H s.algorithm.base (utf8 (m.asStr ++ [':'] ++ uri))
  | .authInt =>
    let bodyHash := H s.algorithm.base body
    H s.algorithm.base (utf8 (m.asStr ++ [':'] ++ uri ++ [':'] ++ bodyHash))

/-- lib.rs 1271-1302 `compute_response`. -/
def Server.computeResponse (H : Hash) (s : Server) (user pw : Str) (m : Method) (uri nonce : Str)
    (nc cnonce : Option Str) (qop : Option Qop) (body : Bytes) : Str :=
  let ha1 := s.applySess H (s.computeHa1 H user pw) nonce cnonce
  let ha2 := s.computeHa2 H m uri body
  match qop, nc, cnonce with
  | some q, some n, some c =>
    H s.algorithm.base (utf8 (ha1 ++ [':'] ++ nonce ++ [':'] ++ n ++ [':'] ++ c ++ [':'] ++ q.asStr ++ [':'] ++ ha2))
  | _, _, _ => H s.algorithm.base (utf8 (ha1 ++ [':'] ++ nonce ++ [':'] ++ ha2))

/-- lib.rs 1342-1369 `verify` (and 1404-1432 `verify_async`, the same text with an async store). -/
def Server.verify (H : Hash) (s : Server) (req : Request) (hs : Headers) (now : Nat) :
    Except AuthErr Bool × Server :=
  match s.prepareDigest H req hs now with
  | (.error e, s) => (.error e, s)
  | (.ok none, s) => (.ok false, s)
  | (.ok (some p), s) =>
    match s.store p.username p.realm with
    | none => (.error .unknownUser, s)
    | some pw =>
      (.ok (s.computeResponse H p.username pw req.method p.uri p.nonce p.ncRaw p.cnonce p.qop req.body
        == p.response), s)

/-! ### Challenges -/

/-- lib.rs 1190-1202: the challenge text. -/
def Server.challengeValue (s : Server) (nonce : Str) (stale : Bool) : Str :=
  "Digest realm=\"".toList ++ s.realm ++ "\", nonce=\"".toList ++ nonce ++ "\", algorithm=".toList
    ++ s.algorithm.asStr ++ ", qop=\"".toList ++ s.qop.asStr ++ "\", opaque=\"".toList ++ s.opaqueTok
    ++ "\"".toList ++ (if stale then ", stale=true".toList else [])

/-- lib.rs 1204-1208. -/
def Server.challengeHeader (s : Server) : Str :=
  if s.proxyAuth then "Proxy-Authenticate".toList else "WWW-Authenticate".toList

/-- Does `s` contain `pat`? (`str::contains`). -/
def hasInfix (pat : Str) : Str → Bool
  | [] => pat.isEmpty
  | c :: cs => pat.isPrefixOf (c :: cs) || hasInfix pat cs

/-- lib.rs 1746-1761 `ensure_to_tag`; `tag` is the random tag. -/
def ensureToTag (to tag : Str) : Str :=
  if hasInfix ";tag=".toList to then to else to ++ ";tag=".toList ++ tag

/-- lib.rs 1126-1140, 1310-1325: copy one header if present; `?` on the push. -/
def copyHeader (src : Headers) (name : Str) (f : Str → Str) (dst : Except HeaderError Headers) :
    Except HeaderError Headers :=
  match dst with
  | .error e => .error e
  | .ok d =>
    match src.get name with
    | none => .ok d
    | some v => d.push name (f v)

/-- Outcome of building a challenge: `panic` is the `unwrap` at 1210-1211. -/
inductive ChallengeErr | panic | header (e : HeaderError) | message (e : MessageError)
  deriving DecidableEq

/-- lib.rs 1306-1340 `challenge` (`stale = false`) and 1123-1155 `challenge_stale` (`stale = true`).
`nonce` and `tag` are the random tokens drawn. -/
def Server.challenge (s : Server) (order : List Str → List Str) (req : Request) (stale : Bool)
    (nonce tag : Str) (now : Nat) : Except ChallengeErr Response × Server :=
  let s := { s with mgr := s.mgr.generate order nonce now }
  match Headers.empty.push s.challengeHeader (s.challengeValue nonce stale) with
  | .error _ => (.error .panic, s)
  | .ok h0 =>
    let h := copyHeader req.headers "CSeq".toList id
      (copyHeader req.headers "Call-ID".toList id
        (copyHeader req.headers "To".toList (ensureToTag · tag)
          (copyHeader req.headers "From".toList id
            (copyHeader req.headers "Via".toList id (.ok h0)))))
    match h with
    | .error e => (.error (.header e), s)
    | .ok h =>
      match Response.new (if s.proxyAuth then 407 else 401)
          (if s.proxyAuth then "Proxy Authentication Required".toList else "Unauthorized".toList) h [] with
      | .error e => (.error (.message e), s)
      | .ok r => (.ok r, s)

/-- lib.rs 1107-1119 `presented_nonce`. -/
def Server.presentedNonce (s : Server) (req : Request) : Option Str :=
  match req.headers.get s.credentialsHeader with
  | none => none
  | some raw =>
    match parseAuthorization raw with
    | none => none
    | some p => if !eqIgnoreCase p.scheme "Digest".toList then none else p.param "nonce".toList

/-- lib.rs 1375-1384 `nonce_is_stale`. -/
def Server.nonceIsStale (s : Server) (req : Request) (now : Nat) : Bool :=
  match s.presentedNonce req with
  | some n => s.mgr.isStale n now
  | none => false

/-- lib.rs 1386-1395 `nonce_reuse_expired`. -/
def Server.nonceReuseExpired (s : Server) (req : Request) (now : Nat) : Bool :=
  match s.presentedNonce req with
  | some n => s.mgr.reuseWindowExceeded n now
  | none => false

/-- lib.rs 716-727 `extract_auth_username`: note it looks at `Authorization` first whatever the
authenticator's mode. -/
def extractAuthUsername (hs : Headers) : Option Str :=
  let raw := match hs.get "Authorization".toList with
    | some v => some v
    | none => hs.get "Proxy-Authorization".toList
  match raw with
  | none => none
  | some raw =>
    match parseAuthorization raw with
    | none => none
    | some p => if !eqIgnoreCase p.scheme "Digest".toList then none else p.param "username".toList

/-! ## Histories -/

/-- One use of the authenticator (or of its public nonce manager, 851-853). -/
inductive Op
  | challenge (req : Request) (stale : Bool) (nonce tag : Str) (now : Nat)
  | verify (req : Request) (hs : Headers) (now : Nat)
  | authInfo (req : Request) (now : Nat)
  | generate (nonce : Str) (now : Nat)
  | cleanup (now : Nat)

/-- State after one operation.  `build_auth_info` (1609-1654) changes the state exactly as
`prepare_digest` does. -/
def Server.step (H : Hash) (order : List Str → List Str) (s : Server) : Op → Server
  | .challenge req stale nonce tag now => (s.challenge order req stale nonce tag now).2
  | .verify req hs now => (s.verify H req hs now).2
  | .authInfo req now => (s.prepareDigest H req req.headers now).2
  | .generate nonce now => { s with mgr := s.mgr.generate order nonce now }
  | .cleanup now => { s with mgr := s.mgr.cleanup now }

def Server.run (H : Hash) (order : List Str → List Str) (s : Server) (ops : List Op) : Server :=
  ops.foldl (Server.step H order) s

end Siphon.Auth
