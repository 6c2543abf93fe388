import Verif.Proxy.Helpers
/-!
# CANCEL and ACK in the proxy

Model of `crates/sip-proxy/src/cancel_ack.rs` (non-test part, lines 1-382).
-/
namespace Siphon.Proxy

/-- cancel_ack.rs 31-46 `extract_invite_cseq`; `none` is `Err(_)`. -/
def extractCseq (r : Request) : Option Nat :=
  match r.headers.get "CSeq".toList with
  | none => none
  | some v =>
    match splitWhitespace v with
    | a :: _ :: _ => parseDec 4294967295 a
    | _ => none

/-- `Vec::join(";")`. -/
def joinSemi : List Str → Str
  | [] => []
  | [p] => p
  | p :: ps => p ++ [';'] ++ joinSemi ps

/-- cancel_ack.rs 74-81: the first piece that is a branch parameter is replaced; `none` if there is none. -/
def replaceBranch (b : Str) : List Str → Option (List Str)
  | [] => none
  | p :: ps =>
    if "branch=".toList.isPrefixOf (lower p) then some (("branch=".toList ++ b) :: ps)
    else (replaceBranch b ps).map (p :: ·)

/-- cancel_ack.rs 61-91 `prepare_cancel`. -/
def prepareCancel (c : Request) (branch : Str) : Request :=
  match c.headers.get "Via".toList with
  | none => c
  | some v =>
    let parts := (splitChar ';' v).map trim
    let parts := match replaceBranch branch parts with
      | some ps => ps
      | none => parts ++ ["branch=".toList ++ branch]
    match c.headers.setOrPush "Via".toList (joinSemi parts) with
    | .ok hs => { c with headers := hs }
    | .error _ => c

/-- cancel_ack.rs 180-185 `extract_tag`. -/
def extractTag (v : Str) : Option Str := findPrefixed "tag=".toList (splitChar ';' v)

/-- cancel_ack.rs 107-151 `matches_invite`. -/
def matchesInvite (cancel invite : Request) : Bool :=
  match extractCseq cancel with
  | none => false
  | some a =>
    match extractCseq invite with
    | none => false
    | some b =>
      if a ≠ b then false
      else
        match cancel.headers.get "Call-ID".toList, invite.headers.get "Call-ID".toList with
        | some ci, some ii =>
          if ci ≠ ii then false
          else
            match cancel.headers.get "From".toList, invite.headers.get "From".toList with
            | some cf, some jf =>
              if extractTag cf ≠ extractTag jf then false
              else if cancel.uri ≠ invite.uri then false
              else true
            | _, _ => false
        | _, _ => false

/-- stateful.rs 232-247 `BranchState`. -/
inductive BranchState | trying | proceeding | completed | cancelled | timedOut
  deriving DecidableEq, Repr

/-- cancel_ack.rs 161-174 `should_forward_to_branch`. -/
def shouldForwardTo : BranchState → Bool
  | .trying | .proceeding => true
  | .completed | .cancelled | .timedOut => false

/-- cancel_ack.rs 284-290 `AckType`. -/
inductive AckType | for2xx | non2xx
  deriving DecidableEq, Repr

/-- cancel_ack.rs 199-219 `ack_type`. -/
def ackType (ack : Request) (is2xx : Option Bool) : AckType :=
  match is2xx with
  | some true => .for2xx
  | some false => .non2xx
  | none => if ack.headers.contains "Route".toList then .for2xx else .non2xx

/-- `str::trim_matches(|c| c == '<' || c == '>')`. -/
def trimAngles (s : Str) : Str :=
  ((s.dropWhile (fun c => c == '<' || c == '>')).reverse.dropWhile (fun c => c == '<' || c == '>')).reverse

/-- cancel_ack.rs 237-255: the first Route that can be read becomes the Request-URI and is left out. -/
def consumeRoute : List Header → Option Str × List Header
  | [] => (none, [])
  | h :: t =>
    if h.nameEq "Route".toList then
      match SipUri.parse (trimAngles h.value) with
      | some u => (some u.raw, t)
      | none => let (u, t) := consumeRoute t; (u, h :: t)
    else let (u, t) := consumeRoute t; (u, h :: t)

/-- cancel_ack.rs 231-264 `prepare_ack`. -/
def prepareAck (ack : Request) (t : AckType) : Request :=
  match t with
  | .non2xx => ack
  | .for2xx =>
    let (u, hs) := consumeRoute ack.headers.inner
    { ack with uri := (match u with | some x => x | none => ack.uri), headers := ⟨hs⟩ }

/-- cancel_ack.rs 325-354 (the part after the comparison of URIs): the last Route becomes the Request-URI. -/
def popLastRoute (r : Request) : Request × Option SipUri :=
  match lastIdx "Route".toList r.headers.inner with
  | none => (r, none)
  | some i =>
    match r.headers.inner[i]? with
    | none => (r, none)
    | some h =>
      match SipUri.parse (trimAngles h.value) with
      | none => (r, none)
      | some u => ({ r with uri := u.raw, headers := ⟨r.headers.inner.eraseIdx i⟩ }, some u)

/-- cancel_ack.rs 304-358 `process_route_set`, for a request whose Request-URI is a SIP URI (otherwise the
call returns `Err(_)` and changes nothing). -/
def processRouteSet (r : Request) (proxyUris : List SipUri) : Request × Option SipUri :=
  if proxyUris.any (fun u => u.raw == r.uri) then popLastRoute r else (r, none)

/-- cancel_ack.rs 364-380 `get_next_hop`; `uri` is the Request-URI, `none` is `Err(_)`. -/
def getNextHop (hs : Headers) (uri : Uri) : Option SipUri :=
  match hs.get "Route".toList with
  | some v => SipUri.parse (trimAngles v)
  | none => match uri with | .sip u => some u | _ => none

end Siphon.Proxy
