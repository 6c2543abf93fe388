import Verif.Base.BMap
import Verif.Base.Percent
import Verif.Base.Num
/-!
# URIs

Model of `crates/sip-core/src/uri.rs` and `crates/sip-core/src/tel_uri.rs` (non-test parts).  Errors are
collapsed: `none` stands for `Err(_)` with whatever payload.
-/
namespace Siphon

/-- `str::strip_prefix`. -/
def stripPrefix (p s : Str) : Option Str := if p.isPrefixOf s then some (s.drop p.length) else none

/-! ## IPv6 literals (`std::net::Ipv6Addr::from_str`, used by uri.rs 98-102) -/

/-- A hexadecimal digit. -/
def isHexDigit (c : Char) : Bool := isDigit c || ('a' ≤ c && c ≤ 'f') || ('A' ≤ c && c ≤ 'F')

/-- std `Parser::read_number(10, Some(3), false)` into a `u8`: one to three digits, no leading zero
unless the number is zero, at most 255.  Returns the rest of the input. -/
def readOctet (s : Str) : Option Str :=
  let ds := (s.take 4).takeWhile isDigit
  let n := ds.foldl (fun a c => a * 10 + (c.toNat - 48)) 0
  if ds.isEmpty || ds.length > 3 || n > 255 || (ds.head? == some '0' && ds.length > 1) then none
  else some (s.drop ds.length)

/-- std `Parser::read_ipv4_addr`. -/
def readIpv4 (s : Str) : Option Str := do
  let s ← readOctet s
  let s ← stripPrefix ['.'] s
  let s ← readOctet s
  let s ← stripPrefix ['.'] s
  let s ← readOctet s
  let s ← stripPrefix ['.'] s
  readOctet s

/-- std `Parser::read_number(16, Some(4), true)` into a `u16`. -/
def readGroup (s : Str) : Option Str :=
  let ds := (s.take 5).takeWhile isHexDigit
  if ds.isEmpty || ds.length > 4 then none else some (s.drop ds.length)

/-- std `Parser::read_separator(':', i, ..)`: from the second item on a colon comes first. -/
def readSep (i : Nat) (s : Str) : Option Str := if i = 0 then some s else stripPrefix [':'] s

/-- std `read_groups`: reads at most `limit` groups (fuel: the number still allowed).  Returns the number
read, whether it ended in an IPv4 address, and the rest. -/
def readGroups (limit : Nat) : Nat → Nat → Str → Nat × Bool × Str
  | 0, i, s => (i, false, s)
  | f + 1, i, s =>
    match (if i + 1 < limit then (readSep i s).bind readIpv4 else none) with
    | some rest => (i + 2, true, rest)
    | none =>
      match (readSep i s).bind readGroup with
      | some rest => readGroups limit f (i + 1) rest
      | none => (i, false, s)

/-- `Ipv6Addr::from_str(s).is_ok()`. -/
def isIpv6 (s : Str) : Bool :=
  match readGroups 8 8 0 s with
  | (n, v4, rest) =>
    if n = 8 then rest.isEmpty
    else if v4 then false
    else
      match stripPrefix [':', ':'] rest with
      | none => false
      | some rest =>
        match readGroups (8 - (n + 1)) (8 - (n + 1)) 0 rest with
        | (_, _, rest) => rest.isEmpty

/-! ## SIP URIs -/

/-- uri.rs 16 -/
def MAX_URI_LENGTH : Nat := 2048
/-- uri.rs 17 -/
def MAX_USER_LENGTH : Nat := 256
/-- uri.rs 18 -/
def MAX_HOST_LENGTH : Nat := 256
/-- uri.rs 19 -/
def MAX_URI_PARAM_NAME_LENGTH : Nat := 64
/-- uri.rs 20 -/
def MAX_URI_PARAM_VALUE_LENGTH : Nat := 256
/-- uri.rs 21 -/
def MAX_URI_HEADER_NAME_LENGTH : Nat := 64
/-- uri.rs 22 -/
def MAX_URI_HEADER_VALUE_LENGTH : Nat := 512
/-- uri.rs 23 -/
def MAX_URI_PARAMS : Nat := 50
/-- uri.rs 24 -/
def MAX_URI_HEADERS : Nat := 50
/-- uri.rs 25 -/
def MAX_ABSOLUTE_URI_LENGTH : Nat := 2048

/-- uri.rs 109-111: characters of a host name. -/
def isHostChar (c : Char) : Bool := isAlnum c || c == '.' || c == '-' || c == '_'

/-- uri.rs 76-120 `validate_host`. -/
def validHost (h : Str) : Bool :=
  !h.isEmpty && utf8Len h ≤ MAX_HOST_LENGTH && !h.any isControl
    && (if h.contains ':' then isIpv6 h else h.all isHostChar)

/-- uri.rs 158: delimiters refused in a decoded user part. -/
def userDelims : List Char := ['@', ';', '?', '/', '#', '[', ']']

/-- uri.rs 131-166 `validate_user`. -/
def validUser (u : Str) : Bool :=
  !u.isEmpty && utf8Len u ≤ MAX_USER_LENGTH && !u.any isControl && !u.any (fun c => userDelims.contains c)

/-- uri.rs 776-782 `is_token_char`. -/
def isUriTokenChar (c : Char) : Bool :=
  isAlnum c || ['-', '.', '!', '%', '*', '_', '+', '`', '\'', '~'].contains c

/-- uri.rs 177-202 `validate_param_name` (and 224-249 `validate_header_name`, the same text with the
same limit). -/
def validUriParamName (n : Str) : Bool :=
  !n.isEmpty && utf8Len n ≤ MAX_URI_PARAM_NAME_LENGTH
    && !n.any (fun c => isControl c || isWs c || !isUriTokenChar c)

/-- uri.rs 205-221 `validate_param_value`. -/
def validUriParamValue (v : Str) : Bool := utf8Len v ≤ MAX_URI_PARAM_VALUE_LENGTH && !v.any isControl

/-- uri.rs 252-268 `validate_header_value`. -/
def validUriHeaderValue (v : Str) : Bool :=
  utf8Len v ≤ MAX_URI_HEADER_VALUE_LENGTH && !v.any (fun c => isControl c || isWs c)

/-- uri.rs 276-291 `SipUri`. -/
structure SipUri where
  raw : Str
  sips : Bool
  user : Option Str
  host : Str
  port : Option Nat
  params : BMap (Option Str)
  headers : BMap Str
  deriving DecidableEq, Repr

/-- uri.rs 352-375: the parameters after the base address. -/
def parseUriParams : List Str → BMap (Option Str) → Option (BMap (Option Str))
  | [], acc => some acc
  | p :: ps, acc =>
    if acc.length ≥ MAX_URI_PARAMS then none
    else
      let p := trim p
      if p.isEmpty then parseUriParams ps acc
      else
        match splitOnce '=' p with
        | some (k, v) =>
          let k := trim k
          let v := trim v
          if !validUriParamName k || !validUriParamValue v then none
          else parseUriParams ps (acc.insert (lower k) (some v))
        | none =>
          if !validUriParamName p then none else parseUriParams ps (acc.insert (lower p) none)

/-- uri.rs 405-427: the URI headers. -/
def parseUriHeaders : List Str → BMap Str → Option (BMap Str)
  | [], acc => some acc
  | p :: ps, acc =>
    if acc.length ≥ MAX_URI_HEADERS then none
    else if p.isEmpty then parseUriHeaders ps acc
    else
      match splitOnce '=' p with
      | some (k, v) =>
        let k := trim k
        let v := trim v
        if !validUriParamName k || !validUriHeaderValue v then none
        else parseUriHeaders ps (acc.insert (lower k) v)
      | none => parseUriHeaders ps acc

/-- The text before the last `c` and the text after it (`rfind` and `split_at`). -/
def splitLast (c : Char) (s : Str) : Option (Str × Str) :=
  (splitOnce c s.reverse).map (fun p => (p.2.reverse, p.1.reverse))

/-- uri.rs 738-774 `split_host_port`. -/
def splitHostPort (s : Str) : Option (Str × Option Nat) :=
  match s with
  | '[' :: t =>
    match splitOnce ']' t with
    | none => none
    | some (host, rest) =>
      match stripPrefix [':'] rest with
      | some p =>
        match parseDec 65535 p with
        | some n => some (host, some n)
        | none => none
      | none => some (host, none)
  | _ =>
    match splitLast ':' s with
    | some (host, p) =>
      if s.count ':' > 1 then none
      else if !p.isEmpty && p.all isDigit then
        match parseDec 65535 p with
        | some n => some (host, some n)
        | none => none
      else some (s, none)
    | none => some (s, none)

/-- uri.rs 377-387: the user part, decoded and validated, and the text of host and port. -/
def splitUserHost (base : Str) : Option (Option Str × Str) :=
  match splitOnce '@' base with
  | some (u, h) =>
    match percentDecode (trim u) with
    | none => none
    | some u => if validUser u then some (some u, trim h) else none
  | none => some (none, trim base)

/-- uri.rs 343-346: address part and header part. -/
def splitQuery (rest : Str) : Str × Option Str :=
  match splitOnce '?' rest with
  | some (a, h) => (a, some h)
  | none => (rest, none)

/-- uri.rs 406-407: the pieces of the header part. -/
def headerPieces : Option Str → List Str
  | some t => splitChar '&' t
  | none => []

/-- uri.rs 313-438 `SipUri::parse`. -/
def SipUri.parse (input : Str) : Option SipUri :=
  if input.any isControl then none
  else if utf8Len input > MAX_URI_LENGTH then none
  else
  match splitOnce ':' input with
  | none => none
  | some (scheme, rest) =>
  let sips := eqIgnoreCase scheme "sips".toList
  if !sips && !eqIgnoreCase scheme "sip".toList then none
  else
  match splitChar ';' (splitQuery rest).1 with
  | [] => none
  | b :: ps =>
  match parseUriParams ps [] with
  | none => none
  | some params =>
  match splitUserHost (trim b) with
  | none => none
  | some (user, hostPort) =>
  if hostPort.isEmpty then none
  else
  match splitHostPort hostPort with
  | none => none
  | some (hostText, port) =>
  match percentDecode hostText with
  | none => none
  | some h =>
  let host := lower h
  if !validHost host then none
  else if port = some 0 then none
  else
  match parseUriHeaders (headerPieces (splitQuery rest).2) [] with
  | none => none
  | some headers =>
    some { raw := input, sips := sips, user := user, host := host, port := port,
           params := params, headers := headers }

/-- uri.rs 802-809, `;name` or `;name=value` for each entry (also tel_uri.rs 551-561). -/
def renderParams : BMap (Option Str) → Str
  | [] => []
  | (k, none) :: t => ';' :: k ++ renderParams t
  | (k, some v) :: t => ';' :: k ++ '=' :: v ++ renderParams t

/-- uri.rs 810-822: the `?name=value&...` tail (`sep` is `?` for the first, `&` for the others). -/
def renderUriHeaders (sep : Char) : BMap Str → Str
  | [] => []
  | (k, v) :: t => sep :: k ++ '=' :: v ++ renderUriHeaders '&' t

/-- uri.rs 791-797: the host, in brackets when it is an IPv6 address. -/
def renderHost (h : Str) : Str :=
  if h.contains ':' && h.head? != some '[' && h.getLast? != some ']' then '[' :: h ++ [']'] else h

/-- uri.rs 784-824 `build_raw_sip_uri`. -/
def SipUri.buildRaw (u : SipUri) : Str :=
  (if u.sips then "sips:".toList else "sip:".toList)
    ++ (match u.user with | some x => x ++ ['@'] | none => [])
    ++ renderHost u.host
    ++ (match u.port with | some p => ':' :: showNat p | none => [])
    ++ renderParams u.params
    ++ renderUriHeaders '?' u.headers

/-- Recompute the text (`self.raw = build_raw_sip_uri(&self)`). -/
def SipUri.rebuilt (u : SipUri) : SipUri := { u with raw := u.buildRaw }

/-- uri.rs 295-310 `SipUri::new`. -/
def SipUri.new (host : Str) : Option SipUri :=
  if validHost host then
    some { raw := "sip:".toList ++ host, sips := false, user := none, host := host, port := none,
           params := [], headers := [] }
  else none

/-- uri.rs 476-482 `with_host`. -/
def SipUri.withHost (u : SipUri) (h : Str) : Option SipUri :=
  if validHost h then some { u with host := h }.rebuilt else none

/-- uri.rs 485-489 `without_port`. -/
def SipUri.withoutPort (u : SipUri) : SipUri := { u with port := none }.rebuilt

/-- uri.rs 492-498 `with_user`. -/
def SipUri.withUser (u : SipUri) (x : Str) : Option SipUri :=
  if validUser x then some { u with user := some x }.rebuilt else none

/-- uri.rs 501-506 `with_port`. -/
def SipUri.withPort (u : SipUri) (p : Nat) : Option SipUri :=
  if p = 0 then none else some { u with port := some p }.rebuilt

/-- uri.rs 515-521 `without_uri_headers`. -/
def SipUri.withoutUriHeaders (u : SipUri) : SipUri :=
  if u.headers.isEmpty then u else { u with headers := [] }.rebuilt

/-- uri.rs 524-552 `with_param`. -/
def SipUri.withParam (u : SipUri) (name : Str) (value : Option Str) : Option SipUri :=
  if u.params.length ≥ MAX_URI_PARAMS then none
  else if !validUriParamName name then none
  else
    match value with
    | some v =>
      if validUriParamValue v then some { u with params := u.params.insert (lower name) (some v) }.rebuilt else none
    | none => some { u with params := u.params.insert (lower name) none }.rebuilt

/-! ## tel URIs -/

/-- tel_uri.rs 24 -/
def MAX_TELEPHONE_NUMBER_LENGTH : Nat := 64
/-- tel_uri.rs 25 -/
def MAX_PHONE_CONTEXT_LENGTH : Nat := 256
/-- tel_uri.rs 26 -/
def MAX_TEL_PARAM_NAME_LENGTH : Nat := 32
/-- tel_uri.rs 27 -/
def MAX_TEL_PARAM_VALUE_LENGTH : Nat := 128
/-- tel_uri.rs 28 -/
def MAX_TEL_PARAMETERS : Nat := 20

/-- Visual separators (tel_uri.rs 101, 119, 546). -/
def isVisualSep (c : Char) : Bool := c == '-' || c == '.' || c == ' ' || c == '(' || c == ')'

/-- tel_uri.rs 70-137 `validate_telephone_number`. -/
def validTelNumber (n : Str) : Bool :=
  !n.isEmpty && utf8Len n ≤ MAX_TELEPHONE_NUMBER_LENGTH && !n.any isControl
    && (match n with
        | '+' :: t => t.all (fun c => isDigit c || isVisualSep c) && t.any isDigit
        | _ => n.all (fun c => isDigit c || isVisualSep c
                || ['*', '#', 'A', 'B', 'C', 'D', 'a', 'b', 'c', 'd'].contains c) && n.any isDigit)

/-- tel_uri.rs 206-225: one label of a domain. -/
def validDomainLabel (l : Str) : Bool :=
  !l.isEmpty && utf8Len l ≤ 63 && l.head? != some '-' && l.getLast? != some '-'
    && l.all (fun c => isAlnum c || c == '-')

/-- tel_uri.rs 148-228 `validate_phone_context`.  (The separate check for a leading, trailing or double
dot, 201-205, is the check for an empty label.) -/
def validPhoneContext (c : Str) : Bool :=
  !c.isEmpty && utf8Len c ≤ MAX_PHONE_CONTEXT_LENGTH && !c.any isControl
    && (match c with
        | '+' :: t =>
          t.all (fun c => isDigit c || ['-', '.', '(', ')', 'A', 'B', 'C', 'D', '*', '#'].contains c)
            && t.any isDigit
        | _ => (splitChar '.' (lower c)).all validDomainLabel)

/-- tel_uri.rs 231-256 `validate_parameter_name`. -/
def validTelParamName (n : Str) : Bool :=
  !n.isEmpty && utf8Len n ≤ MAX_TEL_PARAM_NAME_LENGTH
    && !n.any (fun c => isControl c || isWs c || c == ';' || c == '=')

/-- tel_uri.rs 259-275 `validate_parameter_value`. -/
def validTelParamValue (v : Str) : Bool :=
  utf8Len v ≤ MAX_TEL_PARAM_VALUE_LENGTH && !v.any (fun c => isControl c || isWs c)

/-- tel_uri.rs 283-294 `TelUri`. -/
structure TelUri where
  raw : Str
  number : Str
  isGlobal : Bool
  phoneContext : Option Str
  parameters : BMap (Option Str)
  deriving DecidableEq, Repr

/-- tel_uri.rs 543-549 `normalize_global_number` (also sip-registrar/src/lib.rs 455-461). -/
def dropVisual (n : Str) : Str := n.filter (fun c => !isVisualSep c)

/-- tel_uri.rs 384-418: the parameters; the accumulator is the map and the phone context. -/
def parseTelParams : List Str → BMap (Option Str) × Option Str → Option (BMap (Option Str) × Option Str)
  | [], acc => some acc
  | p :: ps, (ps', ctx) =>
    if ps'.length ≥ MAX_TEL_PARAMETERS then none
    else if p.isEmpty then parseTelParams ps (ps', ctx)
    else if p.any isWs then none
    else
      match splitOnce '=' p with
      | some (k, v) =>
        if !validTelParamName k || !validTelParamValue v then none
        else if eqIgnoreCase k "phone-context".toList then
          (if validPhoneContext v then parseTelParams ps (ps'.insert k (some v), some v) else none)
        else parseTelParams ps (ps'.insert k (some v), ctx)
      | none =>
        if !validTelParamName p then none else parseTelParams ps (ps'.insert p none, ctx)

/-- tel_uri.rs 348-443 `TelUri::parse`. -/
def TelUri.parse (input : Str) : Option TelUri :=
  match stripPrefix "tel:".toList input with
  | none => none
  | some rest =>
  match splitChar ';' rest with
  | [] => none
  | b :: ps =>
  let num := trim b
  if num.isEmpty || !validTelNumber num then none
  else
  let isGlobal := num.head? == some '+'
  match parseTelParams ps ([], none) with
  | none => none
  | some (params, ctx) =>
    if !isGlobal && ctx.isNone then none
    else if isGlobal && ctx.isSome then none
    else some { raw := input, number := if isGlobal then dropVisual num else num, isGlobal := isGlobal,
                phoneContext := ctx, parameters := params }

/-! ## Any URI -/

/-- uri.rs 561-568 `Uri`. -/
inductive Uri
  | sip (u : SipUri)
  | tel (u : TelUri)
  | absolute (s : Str)
  deriving DecidableEq, Repr

/-- uri.rs 689-734, after the length check and trimming: a scheme, a colon, something. -/
def validAbsolute (s : Str) : Bool :=
  match s with
  | [] => false
  | c :: t =>
    isAlpha c &&
    (match splitOnce ':' t with
     | some (scheme, rest) =>
       scheme.all (fun c => isAlnum c || c == '+' || c == '-' || c == '.') && !rest.isEmpty && !rest.any isControl
     | none => false)

/-- uri.rs 681-735 `parse_absolute_uri`. -/
def parseAbsolute (input : Str) : Option Str :=
  if utf8Len input > MAX_ABSOLUTE_URI_LENGTH then none
  else if validAbsolute (trim input) then some (trim input) else none

/-- uri.rs 583-600 `Uri::parse`. -/
def Uri.parse (input : Str) : Option Uri :=
  if input.any isControl then none
  else if "tel:".toList.isPrefixOf input then (TelUri.parse input).map .tel
  else if "sip:".toList.isPrefixOf input || "sips:".toList.isPrefixOf input then (SipUri.parse input).map .sip
  else (parseAbsolute input).map .absolute

/-- uri.rs 603-609 `as_str`. -/
def Uri.asStr : Uri → Str
  | .sip u => u.raw
  | .tel u => u.raw
  | .absolute s => s

/-- uri.rs 639-644 `without_uri_headers`. -/
def Uri.withoutUriHeaders : Uri → Uri
  | .sip u => .sip u.withoutUriHeaders
  | u => u

end Siphon
