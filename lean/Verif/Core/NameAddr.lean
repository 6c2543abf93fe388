import Verif.Core.Uri
import Verif.Core.Headers
/-!
# name-addr values

Model of `crates/sip-core/src/name_addr.rs` and of the name-addr parser of
`crates/sip-parse/src/header_values.rs` (408-597), and of the Path header of
`crates/sip-core/src/service_route.rs`.
-/
namespace Siphon

/-- name_addr.rs 13-17 `NameAddr`. -/
structure NameAddr where
  displayName : Option Str
  uri : Uri
  params : BMap (Option Str)
  deriving DecidableEq, Repr

/-- name_addr.rs 163-175 `validate_text`. -/
def validText (max : Nat) (s : Str) : Bool := utf8Len s ≤ max && !s.any isAsciiControl

/-- name_addr.rs 177-195 `validate_param_name`. -/
def validAddrParamName (n : Str) : Bool :=
  !n.isEmpty && utf8Len n ≤ 64 && !(n.contains '\r' || n.contains '\n' || n.contains '\x00')
    && n.all isUriTokenChar

/-- name_addr.rs 39-55: normalise and check the parameters. -/
def checkAddrParams : BMap (Option Str) → BMap (Option Str) → Option (BMap (Option Str))
  | [], acc => some acc
  | (k, v) :: t, acc =>
    let k := lower k
    if !validAddrParamName k then none
    else if acc.has k then none
    else
      match v with
      | some x => if validText 256 x then checkAddrParams t (acc.insert k (some x)) else none
      | none => checkAddrParams t (acc.insert k none)

/-- name_addr.rs 25-62 `NameAddr::new`. -/
def NameAddr.new (display : Option Str) (uri : Uri) (params : BMap (Option Str)) : Option NameAddr :=
  if (match display with | some d => !validText 256 d | none => false) then none
  else if params.length > 64 then none
  else (checkAddrParams params []).map (fun ps => { displayName := display, uri := uri, params := ps })

/-- name_addr.rs 92-94 `get_param`. -/
def NameAddr.getParam (n : NameAddr) (name : Str) : Option (Option Str) := n.params.get (lower name)

/-- `str::trim_matches('"')`. -/
def trimQuotes (s : Str) : Str :=
  ((s.dropWhile (· == '"')).reverse.dropWhile (· == '"')).reverse

/-- header_values.rs 450-473 `parse_params`. -/
def parseAddrParams : List Str → BMap (Option Str) → Option (BMap (Option Str))
  | [], acc => some acc
  | raw :: t, acc =>
    let raw := trim raw
    if raw.isEmpty then parseAddrParams t acc
    else if acc.length ≥ 64 then none
    else
      match splitOnce '=' raw with
      | some (n, v) => parseAddrParams t (acc.insert (lower (trim n)) (some (trimQuotes (trim v))))
      | none => parseAddrParams t (acc.insert (lower raw) none)

/-- header_values.rs 476-498 and 503-525: the text before and after the first `c` that is outside
quotes; `none` if there is none. -/
def splitUnquoted (c : Char) : Str → Bool → Bool → Option (Str × Str)
  | [], _, _ => none
  | x :: t, inQ, esc =>
    if esc then (splitUnquoted c t inQ false).map (fun p => (x :: p.1, p.2))
    else if inQ && x == '\\' then (splitUnquoted c t inQ true).map (fun p => (x :: p.1, p.2))
    else if x == '"' then (splitUnquoted c t (!inQ) false).map (fun p => (x :: p.1, p.2))
    else if inQ then (splitUnquoted c t inQ false).map (fun p => (x :: p.1, p.2))
    else if x == c then some ([], t)
    else (splitUnquoted c t inQ false).map (fun p => (x :: p.1, p.2))

/-- header_values.rs 408-443 `parse_name_addr` (with 475-527 `find_unquoted_angle_brackets`). -/
def parseNameAddr (value : Str) : Option NameAddr :=
  let input := trim value
  if input.isEmpty then none
  else
  match splitUnquoted '<' input false false with
  | some (before, t) =>
    match splitUnquoted '>' t false false with
    | none => none
    | some (inside, after) =>
      let display := trim before
      match parseAddrParams (splitChar ';' (trim after)) [] with
      | none => none
      | some params =>
        match Uri.parse (trim inside) with
        | none => none
        | some uri =>
          NameAddr.new (if display.isEmpty then none else some (trimQuotes display)) uri.withoutUriHeaders params
  | none =>
    let (uriPart, paramPart) := match splitOnce ';' input with
      | some (a, b) => (a, b)
      | none => (input, [])
    match Uri.parse (trim uriPart) with
    | none => none
    | some uri =>
      match parseAddrParams (splitChar ';' paramPart) [] with
      | none => none
      | some params => NameAddr.new none uri.withoutUriHeaders params

/-! ## Comma-separated lists -/

/-- header_values.rs 553-597 `split_quoted_commas` before the limit on the number of parts: the pieces,
trimmed, empty ones dropped, and whether the text ended inside quotes.  (Also
sip-registrar/src/lib.rs 2232-2265, without limit and without the final quote check.) -/
def splitCommas : Str → Str → Bool → Bool → List Str × Bool
  | [], cur, inQ, _ => (if (trim cur).isEmpty then [] else [trim cur], inQ)
  | x :: t, cur, inQ, esc =>
    if esc then splitCommas t (cur ++ [x]) inQ false
    else if x == '\\' && inQ then splitCommas t (cur ++ [x]) inQ true
    else if x == '"' then splitCommas t (cur ++ [x]) (!inQ) false
    else if x == ',' && !inQ then
      let r := splitCommas t [] inQ false
      (if (trim cur).isEmpty then r.1 else trim cur :: r.1, r.2)
    else splitCommas t (cur ++ [x]) inQ false

/-- header_values.rs 553-597 `split_quoted_commas`: `none` on more than `max` parts or an open quote. -/
def splitQuotedCommas (max : Nat) (s : Str) : Option (List Str) :=
  let r := splitCommas s [] false false
  if r.2 || r.1.length > max then none else some r.1

/-! ## Path -/

/-- service_route.rs 13 -/
def MAX_ROUTES : Nat := 50

/-- header_values.rs 92-103: every part must be a name-addr. -/
def parseNameAddrs : List Str → Option (List NameAddr)
  | [] => some []
  | p :: ps =>
    match parseNameAddr (trim p) with
    | none => none
    | some n => (parseNameAddrs ps).map (n :: ·)

/-- header_values.rs 88-104: all the Path headers. -/
def parsePathValues : List Str → Option (List NameAddr)
  | [] => some []
  | v :: vs =>
    match splitQuotedCommas MAX_ROUTES v with
    | none => none
    | some parts =>
      match parseNameAddrs parts with
      | none => none
      | some ns => (parsePathValues vs).map (ns ++ ·)

/-- header_values.rs 86-107 `parse_path` with service_route.rs 77-82 `PathHeader::new`; `none` is
`Err(_)`. -/
def parsePath (hs : Headers) : Option (List NameAddr) :=
  match parsePathValues (hs.getAll "Path".toList) with
  | none => none
  | some rs => if rs.length > MAX_ROUTES then none else some rs

/-- service_route.rs 151-161: one route. -/
def NameAddr.renderRoute (n : NameAddr) : Str :=
  (match n.displayName with | some d => '"' :: d ++ "\" ".toList | none => [])
    ++ '<' :: n.uri.asStr ++ '>' :: renderParams n.params

/-- service_route.rs 145-165 `Display for PathHeader`. -/
def renderPath : List NameAddr → Str
  | [] => []
  | [n] => n.renderRoute
  | n :: ns => n.renderRoute ++ ", ".toList ++ renderPath ns

end Siphon
