import Verif.Registrar.Store
import Verif.Auth.Model
/-!
# REGISTER handling

Model of `BasicRegistrar` in `crates/sip-registrar/src/lib.rs` (292-461, 997-1432, 1820-2266).
`handle_register_async` (1478-1818) is the same text with an async store and differs in one place: 1495
panics where 1833 returns `Err`; it is not modelled separately.  The registrar runs over
`MemoryLocationStore` and `DigestAuthenticator` (`Verif.Auth.Model`).  The clock is read once per request.
Logging is left out.
-/
namespace Siphon.Registrar

/-- What the registrar takes from libraries and the platform. -/
structure World where
  /-- the digest hash functions -/
  hash : Auth.Hash
  /-- iteration order of the nonce table -/
  order : List Str → List Str
  /-- Unicode normalisation form C -/
  nfc : Str → Str
  /-- `str::parse::<f32>` followed by the range check 0..=1 (lib.rs 1221-1233) and `Display` -/
  qText : Str → Option Str

/-- What one call draws or reads: the instant, the nonce and tag generated if one is needed, the text of
the current date, and whether the optional rate limiter (`Verif.RateLimit`) admits the request. -/
structure Draw where
  now : Nat
  nonce : Str
  tag : Str
  date : Str
  admitted : Bool

/-- lib.rs 999-1020 `BasicRegistrar` (the rate limiter's answer is in `Draw`). -/
structure Reg where
  store : Store
  auth : Option Auth.Server
  defaultExpires : Nat
  minExpires : Nat
  maxExpires : Nat
  serviceRoute : Option (List NameAddr)
  advertise : Bool

/-- lib.rs 1023-1035 `new`. -/
def Reg.new (store : Store) (auth : Option Auth.Server) : Reg :=
  { store := store, auth := auth, defaultExpires := 3600 * SEC, minExpires := 60 * SEC,
    maxExpires := 86400 * SEC, serviceRoute := none, advertise := false }

/-- What the caller of `handle_register` gets. -/
inductive Outcome
  | response (r : Response)
  | error
  | panic
  deriving DecidableEq

/-! ## Addresses-of-record -/

/-- lib.rs 296-301 `usernames_equal`. -/
def usernamesEqual (w : World) (a b : Str) : Bool := eqIgnoreCase (w.nfc a) (w.nfc b)

/-- lib.rs 314-324 `aor_identity`. -/
def aorIdentity (aor : Str) : Option Str :=
  match splitOnce ':' aor with
  | none => none
  | some (scheme, rest) =>
    if eqIgnoreCase scheme "tel".toList then
      match splitChar ';' rest with
      | n :: _ => if n.isEmpty then none else some n
      | [] => if rest.isEmpty then none else some rest
    else (splitOnce '@' rest).map (·.1)

/-- lib.rs 334-356 `normalize_sip_aor`. -/
def normalizeSip (u : SipUri) : Str :=
  let scheme := if u.sips then "sips".toList else "sip".toList
  let host := lower u.host
  let hostPort := match u.port with
    | some p => host ++ ':' :: showNat p
    | none => host
  let user := u.user.map (fun x =>
    match splitLast '@' x with
    | some (l, d) => if eqIgnoreCase d u.host then l else x
    | none => x)
  match user with
  | some x => if !x.isEmpty then scheme ++ ':' :: x ++ '@' :: hostPort else scheme ++ ':' :: hostPort
  | none => scheme ++ ':' :: hostPort

/-- `params.sort_by(|a, b| a.0.cmp(&b.0))`: stable insertion sort by name. -/
def insertParam (x : Str × Option Str) : List (Str × Option Str) → List (Str × Option Str)
  | [] => [x]
  | y :: ys => if strLt y.1 x.1 then y :: insertParam x ys else x :: y :: ys

/-- Stable sort by parameter name (lib.rs 398). -/
def sortParams : List (Str × Option Str) → List (Str × Option Str)
  | [] => []
  | x :: xs => insertParam x (sortParams xs)

/-- lib.rs 366-443 `normalize_tel_aor`. -/
def normalizeTel (u : TelUri) : Str :=
  let number := dropVisual u.number
  let ctx := u.phoneContext.map (fun c => if c.head? == some '+' then dropVisual c else lower c)
  let params := sortParams
    ((u.parameters.filter (fun p => !eqIgnoreCase p.1 "phone-context".toList)).map (fun p => (lower p.1, p.2)))
  if u.isGlobal then "tel:".toList ++ number ++ renderParams params
  else "tel:".toList ++ number
    ++ (match ctx with | some c => ";phone-context=".toList ++ c | none => []) ++ renderParams params

/-- lib.rs 326-332 `normalize_aor`. -/
def normalizeAor : Uri → Option Str
  | .sip u => some (normalizeSip u)
  | .tel u => some (normalizeTel u)
  | .absolute _ => none

/-! ## Contact values -/

/-- lib.rs 2187-2198 `contact_headers` with 2232-2266 `split_quoted_commas`. -/
def contactHeaders (hs : Headers) : List Str :=
  (hs.getAll "Contact".toList).flatMap (fun v => (splitCommas v [] false false).1)

/-- lib.rs 1235-1262 `extract_contact_uri`; `none` is `Err`. -/
def extractContactUri (v : Str) : Option Str :=
  let t := trim v
  match splitOnce '<' t with
  | some (_, rest) =>
    match splitOnce '>' rest with
    | none => none
    | some (inside, _) => if (trim inside).isEmpty then none else some (trim inside)
  | none =>
    match splitOnce ';' t with
    | some (u, _) => if (trim u).isEmpty then none else some (trim u)
    | none => if t.isEmpty then none else some t

/-- lib.rs 1290-1312: the first parameter of that name; `error` is `Err(Invalid)`. -/
def findContactParam (name : Str) : List Str → Except Unit (Option Str)
  | [] => .ok none
  | p :: ps =>
    let p := trim p
    if p.isEmpty then findContactParam name ps
    else
      match splitOnce '=' p with
      | some (k, v) =>
        if eqIgnoreCase (trim k) name then
          (if (trim v).isEmpty then .error () else .ok (some (trim v)))
        else findContactParam name ps
      | none => if eqIgnoreCase p name then .error () else findContactParam name ps

/-- lib.rs 1273-1284: the text holding the header parameters. -/
def contactParamSection (t : Str) : Except Unit (Option Str) :=
  match splitOnce '<' t with
  | some (_, rest) =>
    match splitOnce '>' rest with
    | none => .error ()
    | some (_, after) => .ok (some (trim after))
  | none =>
    match splitOnce ';' t with
    | some (_, ps) => .ok (some (';' :: ps))
    | none => .ok none

/-- `params.strip_prefix(';').unwrap_or(params)`. -/
def stripSemi : Str → Str
  | [] => []
  | c :: r => if c = ';' then r else c :: r

/-- lib.rs 1264-1315 `contact_param_value`. -/
def contactParamValue (v name : Str) : Except Unit (Option Str) :=
  let t := trim v
  if t = ['*'] then .ok none
  else
    match contactParamSection t with
    | .error _ => .error ()
    | .ok none => .ok none
    | .ok (some sec) =>
      let ps := trim sec
      let ps := stripSemi ps
      if ps.isEmpty then .ok none else findContactParam name (splitChar ';' ps)

/-- `u64::MAX`. -/
def U64_MAX : Nat := 18446744073709551615

/-- lib.rs 1435-1439 `ExpiresError`. -/
inductive ExpiresErr | tooBrief (min : Nat) | tooLong | invalid
  deriving DecidableEq

/-- A number that must parse when present. -/
def parseOpt (max : Nat) (v : Option Str) : Except Unit (Option Nat) :=
  match v with
  | none => .ok none
  | some t => match parseDec max t with | some n => .ok (some n) | none => .error ()

/-- lib.rs 1200-1202: contact parameter, else header, else default. -/
def firstOf (a b : Option Nat) (d : Nat) : Nat :=
  match a with
  | some x => x
  | none => match b with | some x => x | none => d

/-- lib.rs 1185-1219 `parse_expires`, in seconds. -/
def Reg.parseExpires (r : Reg) (req : Request) (contact : Str) : Except ExpiresErr Nat :=
  match contactParamValue contact "expires".toList with
  | .error _ => .error .invalid
  | .ok cv =>
  match parseOpt U64_MAX cv with
  | .error _ => .error .invalid
  | .ok ce =>
  match parseOpt U64_MAX (req.headers.get "Expires".toList) with
  | .error _ => .error .invalid
  | .ok he =>
    let seconds := firstOf ce he (r.defaultExpires / SEC)
    if seconds = 0 then .ok 0
    else if seconds < r.minExpires / SEC then .error (.tooBrief (r.minExpires / SEC))
    else if seconds > r.maxExpires / SEC then .error .tooLong
    else .ok seconds

/-- lib.rs 1221-1233 `parse_q_value`. -/
def parseQ (w : World) (contact : Str) : Option Str :=
  match contactParamValue contact "q".toList with
  | .error _ => none
  | .ok none => some ['1']
  | .ok (some v) => w.qText v

/-- lib.rs 1117-1122 `parse_instance_id`. -/
def parseInstance (contact : Str) : Option (Option Str) :=
  match contactParamValue contact "+sip.instance".toList with
  | .error _ => none
  | .ok v => some v

/-- lib.rs 1126-1134 `parse_reg_id`. -/
def parseRegId (contact : Str) : Option (Option Nat) :=
  match contactParamValue contact "reg-id".toList with
  | .error _ => none
  | .ok none => some none
  | .ok (some v) => match parseDec 4294967295 v with | some n => some (some n) | none => none

/-! ## Responses -/

/-- lib.rs 1394-1422 `build_error_response`; `none` is `Err`. -/
def buildError (req : Request) (d : Draw) (code : Nat) (reason : Str) : Option Response :=
  let h := Auth.copyHeader req.headers "CSeq".toList id
    (Auth.copyHeader req.headers "Call-ID".toList id
      (Auth.copyHeader req.headers "To".toList (Auth.ensureToTag · d.tag)
        (Auth.copyHeader req.headers "From".toList id
          (Auth.copyHeader req.headers "Via".toList id (.ok Headers.empty)))))
  match h with
  | .error _ => none
  | .ok h =>
    match h.push "Content-Length".toList "0".toList with
    | .error _ => none
    | .ok h =>
      match Response.new code reason h [] with
      | .error _ => none
      | .ok r => some r

/-- `return self.build_error_response(..)`. -/
def refuse (req : Request) (d : Draw) (code : Nat) (reason : Str) : Outcome :=
  match buildError req d code reason with
  | some r => .response r
  | none => .error

/-- lib.rs 1326-1335, 1345-1354, 1362-1371, 1376-1387: the response, or a bare one when it cannot be built. -/
def refuseBare (req : Request) (d : Draw) (reason bare : Str) : Outcome :=
  match buildError req d 400 reason with
  | some r => .response r
  | none => .response { code := 400, reason := bare, headers := Headers.empty, body := [] }

/-- lib.rs 1424-1431 `build_interval_too_brief`. -/
def refuseBrief (req : Request) (d : Draw) (min : Nat) : Outcome :=
  match buildError req d 423 "Interval Too Brief".toList with
  | none => .error
  | some r =>
    match r.headers.push "Min-Expires".toList (showNat min) with
    | .error _ => .error
    | .ok h => .response { r with headers := h }

/-- lib.rs 1317-1339 `validate_required_headers`: the first missing header's reason. -/
def missingHeader (req : Request) : Option Str :=
  if (req.headers.get "Via".toList).isNone then some "Bad Request - Missing Via header".toList
  else if (req.headers.get "From".toList).isNone then some "Bad Request - Missing From header".toList
  else if (req.headers.get "Call-ID".toList).isNone then some "Bad Request - Missing Call-ID header".toList
  else if (req.headers.get "CSeq".toList).isNone then some "Bad Request - Missing CSeq header".toList
  else none

/-- lib.rs 1341-1391 `parse_cseq_number`; `none` is a 400 response. -/
def parseCseq (req : Request) : Option Nat :=
  match req.headers.get "CSeq".toList with
  | none => none
  | some v =>
    let parts := splitWhitespace v
    match (match parts with | n :: _ => parseDec 4294967295 n | [] => none) with
    | none => none
    | some n =>
      let method := match parts with | _ :: m :: _ => m | _ => []
      if eqIgnoreCase method "REGISTER".toList then some n else none

/-- lib.rs 2200-2211 `format_contact`. -/
def formatContact (b : Binding) : Str :=
  if b.expires / SEC = 0 then b.contact ++ ";expires=0".toList
  else b.contact ++ ";expires=".toList ++ showNat (b.expires / SEC) ++ ";q=".toList ++ b.q

/-- Push a list of values under one name, `?` on each. -/
def pushAll (name : Str) : List Str → Except HeaderError Headers → Except HeaderError Headers
  | [], h => h
  | v :: vs, h =>
    match h with
    | .error e => .error e
    | .ok h => pushAll name vs (h.push name v)

/-- lib.rs 1173-1181: the distinct Path values of the bindings, in order of first appearance. -/
def distinctPaths : List Binding → List Str → List Str
  | [], _ => []
  | b :: bs, seen =>
    match b.path with
    | none => distinctPaths bs seen
    | some p =>
      if seen.contains (renderPath p) then distinctPaths bs seen
      else renderPath p :: distinctPaths bs (seen ++ [renderPath p])

/-- lib.rs 1157-1183 `append_extensions`. -/
def Reg.appendExtensions (r : Reg) (bs : List Binding) (h : Except HeaderError Headers) :
    Except HeaderError Headers :=
  let h := match r.serviceRoute with
    | some sr => pushAll "Service-Route".toList [renderPath sr] h
    | none => h
  let h := if r.advertise then pushAll "Supported".toList ["outbound, path".toList] h else h
  pushAll "Path".toList (distinctPaths bs []) h

/-- lib.rs 1981-1999 and 2146-2164: the headers copied from the request. -/
def copiedHeaders (req : Request) (d : Draw) : Except HeaderError Headers :=
  Auth.copyHeader req.headers "CSeq".toList id
    (Auth.copyHeader req.headers "Call-ID".toList id
      (Auth.copyHeader req.headers "To".toList (Auth.ensureToTag · d.tag)
        (Auth.copyHeader req.headers "From".toList id
          (Auth.copyHeader req.headers "Via".toList id (.ok Headers.empty)))))

/-- A 200 response with these headers, or `Err`. -/
def okResponse (h : Except HeaderError Headers) : Outcome :=
  match h with
  | .error _ => .error
  | .ok h =>
    match Response.new 200 "OK".toList h [] with
    | .ok r => .response r
    | .error _ => .error

/-- lib.rs 2001-2009: the response to a wildcard removal. -/
def wildcardResponse (req : Request) (d : Draw) : Outcome :=
  okResponse
    (pushAll "Content-Length".toList ["0".toList]
      (pushAll "Date".toList [d.date] (pushAll "Contact".toList [['*']] (copiedHeaders req d))))

/-- lib.rs 2166-2182: the response listing the current bindings. -/
def Reg.listResponse (r : Reg) (req : Request) (d : Draw) (bs : List Binding) : Outcome :=
  okResponse
    (pushAll "Content-Length".toList ["0".toList]
      (pushAll "Date".toList [d.date]
        (r.appendExtensions bs (pushAll "Contact".toList (bs.map formatContact) (copiedHeaders req d)))))

/-! ## One contact -/

/-- What a Contact value asks for (lib.rs 2036-2103). -/
structure Ask where
  uri : Str
  expires : Nat
  q : Str
  instanceId : Option Str
  regId : Option Nat
  deriving DecidableEq

/-- lib.rs 2036-2103: read one Contact value, or the response refusing it. -/
def Reg.readContact (w : World) (r : Reg) (req : Request) (d : Draw) (contact : Str) : Except Outcome Ask :=
  match extractContactUri contact with
  | none => .error (refuse req d 400 "Bad Request - Invalid Contact header".toList)
  | some uri =>
  match Uri.parse uri with
  | some (.sip _) =>
    match r.parseExpires req contact with
    | .error (.tooBrief min) => .error (refuseBrief req d min)
    | .error .tooLong => .error (refuse req d 400 "Bad Request - Expires too long".toList)
    | .error .invalid => .error (refuse req d 400 "Bad Request - Invalid Expires".toList)
    | .ok expires =>
    match parseQ w contact with
    | none => .error (refuse req d 400 "Bad Request - Invalid q value".toList)
    | some q =>
    match parseInstance contact with
    | none => .error (refuse req d 400 "Bad Request - Invalid +sip.instance".toList)
    | some inst =>
    match parseRegId contact with
    | none => .error (refuse req d 400 "Bad Request - Invalid reg-id".toList)
    | some regId => .ok { uri := uri, expires := expires, q := q, instanceId := inst, regId := regId }
  | _ => .error (refuse req d 400 "Bad Request - Unsupported Contact URI scheme".toList)

/-- What the handler knows about the request when it processes contacts (lib.rs 1929-1938, 2017-2033). -/
structure Ctx where
  aor : Str
  callId : Str
  cseq : Nat
  userAgent : Option Str
  path : Option (List NameAddr)
  /-- the bindings found when processing started, by contact (2029-2033) -/
  existing : List Binding

/-- lib.rs 2121-2138: the binding to store; `none` is `Err`. -/
def makeBinding (c : Ctx) (a : Ask) : Option Binding :=
  match Binding.new c.aor a.uri (a.expires * SEC) with
  | none => none
  | some b =>
  match b.withCallId c.callId with
  | none => none
  | some b =>
  match b.withCseq c.cseq with
  | none => none
  | some b =>
  let b := { b with q := a.q }
  match (match c.userAgent with | some u => b.withUserAgent u | none => some b) with
  | none => none
  | some b => some { b with path := c.path, instanceId := a.instanceId, regId := a.regId }

/-- lib.rs 2105-2113: is the request out of order for that contact?  (In 2031-2033 a later binding for
the same contact would replace an earlier one in the map, hence the search from the end.) -/
def outOfOrder (c : Ctx) (uri : Str) : Bool :=
  match c.existing.reverse.find? (fun b => b.contact == uri) with
  | some b => b.callId == c.callId && c.cseq ≤ b.cseq
  | none => false

/-- lib.rs 2036-2142, one round of the loop. -/
def Reg.applyContact (w : World) (r : Reg) (req : Request) (d : Draw) (c : Ctx) (contact : Str) (s : Store) :
    Except Outcome Store :=
  match r.readContact w req d contact with
  | .error o => .error o
  | .ok a =>
    if outOfOrder c a.uri then .error (refuse req d 400 "Bad Request - CSeq out of order".toList)
    else if a.expires = 0 then .ok (s.removeContact c.aor a.uri)
    else
      match makeBinding c a with
      | none => .error .error
      | some b =>
        match s.upsert b d.now with
        | (.error _, _) => .error .error
        | (.ok (), s) => .ok s

/-- lib.rs 2035-2143, the loop: an early return keeps what has been stored so far. -/
def Reg.applyContacts (w : World) (r : Reg) (req : Request) (d : Draw) (c : Ctx) :
    List Str → Store → Option Outcome × Store
  | [], s => (none, s)
  | x :: xs, s =>
    match r.applyContact w req d c x s with
    | .error o => (some o, s)
    | .ok s => r.applyContacts w req d c xs s

/-! ## The handler -/

/-- lib.rs 1823-1869: required headers, rate limit, authentication.  `none` means "go on". -/
def Reg.gate (w : World) (r : Reg) (req : Request) (d : Draw) : Option Outcome × Option Auth.Server :=
  match missingHeader req with
  | some reason => (some (refuseBare req d reason reason), r.auth)
  | none =>
  if !d.admitted then
    (some (refuse req d 503 "Service Unavailable - Rate Limit Exceeded".toList), r.auth)
  else
  match r.auth with
  | none => (none, none)
  | some s =>
    match s.verify w.hash req req.headers d.now with
    | (.ok true, s) => (none, some s)
    | (v, s) =>
      let stale := v = .ok false ∧ s.nonceIsStale req d.now = true
      match s.challenge w.order req (decide stale) d.nonce d.tag d.now with
      | (.ok resp, s) => (some (.response resp), some s)
      | (.error .panic, s) => (some .panic, some s)
      | (.error _, s) => (some .error, some s)

/-- lib.rs 1872-1897: the address-of-record of the To header, or the reason for a 400. -/
def requestAor (req : Request) : Except Str Str :=
  match req.headers.get "To".toList with
  | none => .error "Bad Request - Missing To header".toList
  | some to =>
    match parseNameAddr to with
    | none => .error "Bad Request - Invalid To header".toList
    | some n =>
      match normalizeAor n.uri with
      | none => .error "Bad Request - Unsupported To URI scheme".toList
      | some a => .ok a

/-- lib.rs 1908-1913: may the authenticated user register this address? -/
def authorized (w : World) (req : Request) (aor : Str) : Bool :=
  match Auth.extractAuthUsername req.headers with
  | none => false
  | some u => match aorIdentity aor with | some i => usernamesEqual w i u | none => false

/-- lib.rs 1929-2183: the request has passed every check on who may do this. -/
def Reg.update (w : World) (r : Reg) (req : Request) (d : Draw) (aor : Str) : Outcome × Store :=
  match parseCseq req with
  | none =>
    (refuseBare req d
      (if (req.headers.get "CSeq".toList).isNone then "Bad Request - Missing CSeq header".toList
        else "Bad Request - Invalid CSeq".toList)
      (if (req.headers.get "CSeq".toList).isNone then "Bad Request - Missing CSeq".toList
        else "Bad Request - Invalid CSeq".toList), r.store)
  | some cseq =>
  let contacts := contactHeaders req.headers
  if contacts.isEmpty then (refuse req d 400 "Bad Request - Missing Contact header".toList, r.store)
  else if contacts.any (fun c => trim c == ['*']) && contacts.length != 1 then
    (refuse req d 400 "Bad Request - Wildcard Contact must be the only Contact".toList, r.store)
  else if contacts.any (fun c => trim c == ['*']) then
    match parseOpt U64_MAX (req.headers.get "Expires".toList) with
    | .error _ => (refuse req d 400 "Bad Request - Invalid Expires".toList, r.store)
    | .ok (some 0) => (wildcardResponse req d, r.store.removeAll aor)
    | .ok _ => (refuse req d 400 "Bad Request - Wildcard Contact requires Expires: 0".toList, r.store)
  else
    match (if req.headers.contains "Path".toList then (parsePath req.headers).map some else some none) with
    | none => (refuse req d 400 "Bad Request - Invalid Path header".toList, r.store)
    | some path =>
      let (existing, s) := r.store.lookup aor d.now d.now
      let c : Ctx :=
        { aor := aor, callId := match req.headers.get "Call-ID".toList with | some v => v | none => [],
          cseq := cseq, userAgent := req.headers.get "User-Agent".toList, path := path, existing := existing }
      match r.applyContacts w req d c contacts s with
      | (some o, s) => (o, s)
      | (none, s) =>
        let (bs, s) := s.lookup aor d.now d.now
        (r.listResponse req d bs, s)

/-- lib.rs 1822-2183 `handle_register`. -/
def Reg.handle (w : World) (r : Reg) (req : Request) (d : Draw) : Outcome × Reg :=
  match r.gate w req d with
  | (some o, a) => (o, { r with auth := a })
  | (none, a) =>
    let r := { r with auth := a }
    match requestAor req with
    | .error reason => (refuse req d 400 reason, r)
    | .ok aor =>
      if r.auth.isSome && !authorized w req aor then
        (refuse req d 403 "Forbidden - Not authorized for this address-of-record".toList, r)
      else
        match r.update w req d aor with
        | (o, s) => (o, { r with store := s })

/-! ## Histories -/

/-- Everything that can change the registrar: requests, and direct use of its store (for instance the
periodic clean-up). -/
inductive RegOp
  | register (req : Request) (d : Draw)
  | store (op : StoreOp)

def Reg.step (w : World) (r : Reg) : RegOp → Reg
  | .register req d => (r.handle w req d).2
  | .store op => { r with store := r.store.step op }

def Reg.run (w : World) (r : Reg) (ops : List RegOp) : Reg := ops.foldl (Reg.step w) r

end Siphon.Registrar
