import Verif.Core.NameAddr
/-!
# Route and Record-Route values

Model of `crates/sip-core/src/route.rs` (non-test part).  The name-addr parser there (323-442) is a copy of
the one modelled in `Verif.Core.NameAddr` that keeps the headers of the URI.
-/
namespace Siphon

/-- route.rs 55 `MAX_PARSE_INPUT`. -/
def MAX_ROUTE_INPUT : Nat := 2048

/-- route.rs 286-298 `RouteHeader::parse` with 323-357 `parse_name_addr`; `none` is `Err(_)`. -/
def parseRoute (value : Str) : Option NameAddr :=
  if utf8Len value > MAX_ROUTE_INPUT then none
  else
  let input := trim value
  if input.isEmpty then none
  else
  match splitUnquoted '<' input false false with
  | some (before, t) =>
    match splitUnquoted '>' t false false with
    | none => none
    | some (inside, after) =>
      let display := trim before
      match parseAddrParams (splitChar ';' (trim after)) [] with
      | none => none
      | some params =>
        match Uri.parse (trim inside) with
        | none => none
        | some uri => NameAddr.new (if display.isEmpty then none else some (trimQuotes display)) uri params
  | none =>
    let (uriPart, paramPart) := match splitOnce ';' input with
      | some (a, b) => (a, b)
      | none => (input, [])
    match Uri.parse (trim uriPart) with
    | none => none
    | some uri =>
      match parseAddrParams (splitChar ';' paramPart) [] with
      | none => none
      | some params => NameAddr.new none uri params

/-- route.rs 182-195 `has_lr`. -/
def NameAddr.hasLr (n : NameAddr) : Bool :=
  n.params.any (fun e => eqIgnoreCase e.1 "lr".toList) ||
    match n.uri with
    | .sip u => u.params.has "lr".toList
    | _ => false

end Siphon
