import Verif.Sub.Model
import Verif.Dialog.Prack
import Verif.Dns.Dhcp
import Verif.Fsm.Model
/-!
# REFER (C105 to C107)

Model of `bins/siphond/src/handlers/refer.rs`, of `parse_name_addr_uri` in `bins/siphond/src/sdp_utils.rs`, of `create_invite` and
the Refer-To value of `create_refer_with_replaces` in `crates/sip-uac/src/lib.rs`, and of the calls the transaction manager makes
to the user of a client INVITE transaction.  Random branches, tags and Call-IDs are arguments.
-/
namespace Siphon.Sub
open Siphon.Dlg (addAll angle bareAddr Ua Mgr validateDialogRequest sdpHeaders)

/-! ## Addresses -/

/-- `std::net::IpAddr`: four octets, or eight groups. -/
inductive Addr
  | v4 (a b c d : Nat)
  | v6 (segs : List Nat)
  deriving DecidableEq, Repr

/-- the number spelled by decimal digits -/
def decimalOf (ds : Str) : Nat := ds.foldl (fun a c => a * 10 + (c.toNat - 48)) 0

/-- the number spelled by hexadecimal digits -/
def hexOf (ds : Str) : Nat := ds.foldl (fun a c => a * 16 + (match hexByte (UInt8.ofNat c.toNat) with | some x => x | none => 0)) 0

/-- `readOctet` with the number it reads. -/
def readOctetV (s : Str) : Option (Nat × Str) := (readOctet s).map (fun r => (decimalOf (s.take (s.length - r.length)), r))

/-- std `Parser::read_ipv4_addr` with the address. -/
def readIpv4V (s : Str) : Option ((Nat × Nat × Nat × Nat) × Str) := do
  let (a, s) ← readOctetV s
  let s ← stripPrefix ['.'] s
  let (b, s) ← readOctetV s
  let s ← stripPrefix ['.'] s
  let (c, s) ← readOctetV s
  let s ← stripPrefix ['.'] s
  let (d, s) ← readOctetV s
  some ((a, b, c, d), s)

/-- std `Parser::read_number(10, None, true)` into a `u16`, up to the end of the text. -/
def readPort (s : Str) : Option Nat := if s.all isDigit then parseDec 65535 s else none

/-- std `read_groups` with the groups (see `readGroups`). -/
def readGroupsV (limit : Nat) : Nat → Nat → Str → List Nat × Bool × Str
  | 0, _, s => ([], false, s)
  | f + 1, i, s =>
    match (if i + 1 < limit then (readSep i s).bind readIpv4V else none) with
    | some ((a, b, c, d), rest) => ([a * 256 + b, c * 256 + d], true, rest)
    | none =>
      match readSep i s with
      | none => ([], false, s)
      | some s' =>
        match readGroup s' with
        | none => ([], false, s)
        | some rest =>
          let (gs, v4, r) := readGroupsV limit f (i + 1) rest
          (hexOf (s'.take (s'.length - rest.length)) :: gs, v4, r)

/-- std `Parser::read_ipv6_addr` with the address. -/
def readIpv6V (s : Str) : Option (List Nat × Str) :=
  match readGroupsV 8 8 0 s with
  | (gs, v4, rest) =>
    if gs.length = 8 then some (gs, rest)
    else if v4 then none
    else
      match stripPrefix [':', ':'] rest with
      | none => none
      | some rest =>
        match readGroupsV (8 - (gs.length + 1)) (8 - (gs.length + 1)) 0 rest with
        | (tl, _, rest) => some (gs ++ List.replicate (8 - gs.length - tl.length) 0 ++ tl, rest)

/-- `SocketAddr::from_str`.  Simplification: an IPv6 address with a scope identifier is not read; no URI has one, or begins with
the bracket (`C106_target`). -/
def parseSocket (s : Str) : Option (Addr × Nat) :=
  match readIpv4V s with
  | some ((a, b, c, d), ':' :: p) => (readPort p).map (fun n => (.v4 a b c d, n))
  | _ =>
    match s with
    | '[' :: t =>
      match readIpv6V t with
      | some (gs, ']' :: ':' :: p) => (readPort p).map (fun n => (.v6 gs, n))
      | _ => none
    | _ => none

/-- refer.rs 772-800, the IPv4 case of `is_global_unicast`, with `Ipv4Addr::is_loopback` (127.0.0.0/8), `is_private` (10.0.0.0/8,
172.16.0.0/12, 192.168.0.0/16), `is_link_local` (169.254.0.0/16), `is_unspecified`, `is_multicast` (224 to 239), `is_broadcast` and
`is_documentation` (192.0.2.0/24, 198.51.100.0/24, 203.0.113.0/24). -/
def globalV4 (a b c d : Nat) : Bool :=
  if a == 127
    || (a == 10 || (a == 172 && (16 ≤ b && b ≤ 31)) || (a == 192 && b == 168))
    || (a == 169 && b == 254)
    || (a == 0 && b == 0 && c == 0 && d == 0)
    || (224 ≤ a && a ≤ 239)
    || (a == 255 && b == 255 && c == 255 && d == 255)
    || ((a == 192 && b == 0 && c == 2) || (a == 198 && b == 51 && c == 100) || (a == 203 && b == 0 && c == 113)) then false
  else if a == 100 && (64 ≤ b && b ≤ 127) then false
  else if a == 198 && (b == 18 || b == 19) then false
  else if a == 192 && b == 0 && c == 0 then false
  else true

/-- refer.rs 801-840, the IPv6 case of `is_global_unicast`, with `Ipv6Addr::is_loopback` (::1), `is_unspecified` and `is_multicast`
(ff00::/8). -/
def globalV6 : List Nat → Bool
  | [s0, s1, s2, s3, s4, s5, s6, s7] =>
    if [s0, s1, s2, s3, s4, s5, s6, s7] == [0, 0, 0, 0, 0, 0, 0, 1] || [s0, s1, s2, s3, s4, s5, s6, s7] == [0, 0, 0, 0, 0, 0, 0, 0]
      || s0 &&& 0xff00 == 0xff00 then false
    else if s0 &&& 0xffc0 == 0xfe80 then false
    else if s0 &&& 0xfe00 == 0xfc00 then false
    else if s0 == 0x2001 && s1 == 0xdb8 then false
    else if s0 == 0 && s1 == 0 && s2 == 0 && s3 == 0 && s4 == 0 && s5 == 0xffff then
      globalV4 (s6 >>> 8) (s6 &&& 0xff) (s7 >>> 8) (s7 &&& 0xff)
    else true
  | _ => true

/-- refer.rs 772-840 `is_global_unicast`. -/
def isGlobal : Addr → Bool
  | .v4 a b c d => globalV4 a b c d
  | .v6 gs => globalV6 gs

/-- refer.rs 757-765 `refer_target_allowed`. -/
def targetAllowed (allowPrivate : Bool) (a : Addr) : Bool := if allowPrivate then true else isGlobal a

/-! ## Refer-To -/

/-- sdp_utils.rs 23-37 `parse_name_addr_uri`. -/
def parseNameAddr (v : Str) : Option SipUri :=
  match splitOnce '<' v with
  | some (_, rest) =>
    match splitOnce '>' rest with
    | some (u, _) => SipUri.parse u
    | none => SipUri.parse rest
  | none =>
    match splitChar ';' v with
    | [] => none
    | p :: _ => SipUri.parse (trim p)

/-- refer.rs 726-746 `percent_decode`. -/
def percentDecodeLossy (s : Str) : Str := Dns.lossy (percentGo (utf8 s).length (utf8 s))

/-- `str::contains` for a text. -/
def hasText (p : Str) : Str → Bool
  | [] => p.isEmpty
  | c :: s => p.isPrefixOf (c :: s) || hasText p s

/-- refer.rs 279-293: the loop of `extract_replaces`. -/
def replacesIn : List Str → Option Str
  | [] => none
  | p :: ps =>
    match splitOnce '=' p with
    | none => none
    | some (n, raw) =>
      if !eqIgnoreCase n "Replaces".toList then replacesIn ps
      else
        let d := percentDecodeLossy raw
        if !hasText "to-tag=".toList (lower d) || !hasText "from-tag=".toList (lower d) then none else some d

/-- `strip_suffix('>').unwrap_or(..)`, refer.rs 277. -/
def stripAngle (s : Str) : Str := if s.getLast? = some '>' then s.dropLast else s

/-- refer.rs 270-295 `extract_replaces`. -/
def extractReplaces (v : Str) : Option Str :=
  match splitOnce '?' v with
  | none => none
  | some (_, q) => replacesIn (splitChar '&' (stripAngle q))

/-! ## The subscription -/

/-- refer.rs 297-339 `build_refer_subscription`; `none` is an error. -/
def buildReferSubscription (rq rs : Headers) (localUri : SipUri) : Option Sub :=
  match rq.get "Call-ID".toList, rq.get "From".toList, rs.get "To".toList with
  | some c, some f, some t =>
    match plainTag f, plainTag t with
    | some ft, some tt =>
      match parseNameAddr f with
      | none => none
      | some remote =>
        let contact :=
          match rq.get "Contact".toList with
          | none => remote
          | some v =>
            match parseNameAddr v with
            | none => remote
            | some u => u
        let cseq :=
          match rq.get "CSeq".toList with
          | none => 1
          | some v =>
            match splitWhitespace v with
            | [] => 1
            | w :: _ =>
              match parseDec 4294967295 w with
              | none => 1
              | some n => n
        some ⟨⟨c, ft, tt, "refer".toList⟩, .active, localUri, remote, contact, 3600, cseq, 0⟩
    | _, _ => none
  | _, _, _ => none

/-- The subscription and the NOTIFYs sent so far. -/
abbrev Told := Sub × List Request

/-- refer.rs 93-117 and 341-370 `send_notify`: an error is dropped.  `br` gives the generated branches. -/
def tell (l : SipUri) (br : Nat → Str) (p : Told) (code : Nat) (reason : Str) : Run Told :=
  match createNotifySipfrag l l (br p.2.length) p.1 code reason with
  | .panic => .panic
  | .done none => .done p
  | .done (some (n, s)) => .done (s, p.2 ++ [n])

/-! ## The handler -/

/-- What the handler takes from the configuration.  `sdp` is `none` for the profile `None`, otherwise the result of
`generate_sdp_offer`. -/
structure RCfg where
  localUri : SipUri
  agent : Str
  allowPrivate : Bool
  sdp : Option (Option Str)

/-- The random texts. -/
structure Rand where
  toTag : Str
  fromTag : Str
  callId : Str
  invite : Str
  notify : Nat → Str

/-- sip-uac lib.rs 1009-1101 `create_invite_with_from` without an override. -/
def createInvite (ua : Ua) (branch callId tag : Str) (target : SipUri) (sdp : Option Str) : Run Request := do
  let hs ← addAll ([("Via", "SIP/2.0/UDP placeholder;branch=".toList ++ branch), ("From", bareAddr ua.localUri tag),
    ("To", angle target), ("Call-ID", callId), ("CSeq", "1 INVITE".toList), ("Contact", angle ua.contactUri),
    ("Max-Forwards", "70".toList), ("User-Agent", ua.agent)] ++ sdpHeaders sdp) .empty
  match Request.new .invite target.raw hs (match sdp with | some t => utf8 t | none => []) with
  | .error _ => .panic
  | .ok r => .done r

/-- refer.rs 585-597: the transport. -/
def transportOf (u : SipUri) : String :=
  match u.params.get "transport".toList with
  | some (some v) =>
    if lower v = "ws".toList then "WS"
    else if lower v = "wss".toList then "WSS"
    else if lower v = "tls".toList then "TLS"
    else if lower v = "udp".toList then "UDP"
    else "TCP"
  | _ => "TCP"

/-- refer.rs 650-680: the first Via names the transport.  Simplification: the branch read back from the Via that was just built is
the one it was built with. -/
def withVia (transport : String) (branch : Str) (hs : Headers) : Headers :=
  match hs.inner with
  | h :: t => ⟨{ h with value := "SIP/2.0/".toList ++ transport.toList ++ " placeholder;branch=".toList ++ branch } :: t⟩
  | [] => hs

/-- What happens after the 202. -/
inductive After
  /-- no subscription could be made, nothing more happens -/
  | nothing
  /-- the transfer failed before a call was made -/
  | failed (told : Told)
  /-- the INVITE and the address it is sent to -/
  | calling (told : Told) (invite : Request) (target : Addr) (port : Nat) (transport : String)
  deriving DecidableEq, Repr

/-- The subscription and the NOTIFYs, if there are any. -/
def After.told : After → Option Told
  | .nothing => none
  | .failed t => some t
  | .calling t _ _ _ _ => some t

/-- What the daemon does with a REFER. -/
inductive Referred
  | refused (code : Nat)
  | accepted (answer : Response) (after : After)
  deriving DecidableEq, Repr

/-- refer.rs 527-720: the part of `handle` after the first NOTIFY. -/
def transfer (cfg : RCfg) (rnd : Rand) (told : Told) (referTo : Str) : Run After :=
  match parseNameAddr referTo with
  | none => do
    let t ← tell cfg.localUri rnd.notify told 400 "Bad Request".toList
    .done (.failed t)
  | some u =>
    let uri := u.withoutUriHeaders
    let port := match uri.port with | some p => p | none => 5060
    match parseSocket (uri.host ++ ':' :: showNat port) with
    | none => do
      let t ← tell cfg.localUri rnd.notify told 400 "Bad Request".toList
      .done (.failed t)
    | some (a, p) =>
      if !targetAllowed cfg.allowPrivate a then do
        let t ← tell cfg.localUri rnd.notify told 403 "Forbidden".toList
        .done (.failed t)
      else
        match cfg.sdp with
        | some none => do
          let t ← tell cfg.localUri rnd.notify told 488 "Not Acceptable Here".toList
          .done (.failed t)
        | sdp => do
          let offer := match sdp with | some o => o | none => none
          let inv ← createInvite ⟨cfg.localUri, cfg.localUri, none, cfg.agent⟩ rnd.invite rnd.callId rnd.fromTag uri offer
          let hs := match extractReplaces referTo with
            | some r => pushQuiet inv.headers "Replaces" r
            | none => inv.headers
          .done (.calling told { inv with headers := withVia (transportOf uri) rnd.invite hs } a p (transportOf uri))

/-- refer.rs 374-720 `handle`, with REFER enabled and a valid `local_uri`.  The server made for the answer has the local URI as its
Contact. -/
def handleRefer (cfg : RCfg) (dialogs : Mgr) (m : SubMgr) (rq : Request) (rnd : Rand) : Run (Referred × SubMgr) :=
  match rq.headers.get "Refer-To".toList with
  | none => .done (.refused 400, m)
  | some referTo =>
    match dialogs.findByRequest rq.headers with
    | .panic => .panic
    | .done none => .done (.refused 481, m)
    | .done (some d) =>
      if rq.method.asStr ≠ "REFER".toList then .done (.refused 603, m)
      else
        match validateDialogRequest rq.headers d.id with
        | .panic => .panic
        | .done false => .done (.refused 603, m)
        | .done true => do
          let r ← Uas.build cfg.localUri rq.headers rnd.toTag .refer
          match r with
          | none => .done (.refused 603, m)
          | some r =>
            match buildReferSubscription rq.headers r.headers cfg.localUri with
            | none => .done (.accepted r .nothing, m)
            | some s => do
              let m := (m.insert s).2
              let t ← tell cfg.localUri rnd.notify (s, []) 100 "Trying".toList
              let a ← transfer cfg rnd t referTo
              .done (.accepted r a, m)

/-! ## The progress of the call -/

/-- What happens to the INVITE transaction.  A response is given by what the state machine sees of it and its reason phrase. -/
inductive Ev
  | response (r : Fsm.Resp) (reason : Str)
  | timer (t : Fsm.Timer)
  | transportError
  /-- sip-transaction manager.rs 690-705: the entry is evicted -/
  | evicted
  deriving DecidableEq, Repr

/-- sip-transaction manager.rs: a response is provisional below 200. -/
def Ev.input : Ev → Option Fsm.CIEvent
  | .response r _ => some (if r.code < 200 then .provisional r else .final r)
  | .timer t => some (.timer t)
  | .transportError => some .transportError
  | .evicted => none

/-- What `on_provisional`, `on_final` and `on_terminated` of the transaction user (refer.rs 120-133) report for an action of the
state machine (manager.rs 1312-1365): code and reason phrase. -/
def reported (reason : Str) : Fsm.CIAction → Option (Nat × Str)
  | .deliver r => some (r.code, reason)
  | .terminate why => some (503, why.toList)
  | _ => none

def Ev.reason : Ev → Str
  | .response _ s => s
  | _ => []

/-- The reports of one event, and the machine afterwards: `none` when the entry is gone (manager.rs 1234, 1364).
`on_transport_error` comes before the actions (manager.rs 1112-1130). -/
def Ev.run (e : Ev) (s : Fsm.CI) : Option Fsm.CI × List (Nat × Str) :=
  match e.input with
  | none => (none, [(503, "resource limit exceeded".toList)])
  | some i =>
    let (s', as) := s.step i
    let reps := (match e with | .transportError => [(503, "Transport Error".toList)] | _ => []) ++ as.filterMap (reported e.reason)
    (if s'.state = Fsm.CIState.terminated then none else some s', reps)

/-- The reports of all events. -/
def reports : Option Fsm.CI → List Ev → Option Fsm.CI × List (Nat × Str)
  | none, _ => (none, [])
  | some s, [] => (some s, [])
  | some s, e :: es =>
    let (s', r) := e.run s
    let (s'', rs) := reports s' es
    (s'', r ++ rs)

/-- refer.rs 120-133, 243-246: one NOTIFY for each report. -/
def tellAll (l : SipUri) (br : Nat → Str) : Told → List (Nat × Str) → Run Told
  | p, [] => .done p
  | p, (c, r) :: rs => do
    let p ← tell l br p c r
    tellAll l br p rs

/-- The machine after the INVITE was sent, as `start_client_transaction` leaves it. -/
def sent (tm : Fsm.Timers) (invite : Fsm.Req) : Fsm.CI := ((Fsm.CI.new tm).step (.sendInvite invite)).1

/-- All NOTIFYs of a transfer: those of the handler and those of the call. -/
def progress (l : SipUri) (br : Nat → Str) (told : Told) (s : Fsm.CI) (es : List Ev) : Run Told :=
  tellAll l br told (reports (some s) es).2

/-! ## The Refer-To value for an attended transfer -/

/-- a hexadecimal digit, in capitals -/
def hexUpper (n : Nat) : Char := if n < 10 then Char.ofNat (48 + n) else Char.ofNat (55 + n)

/-- `urlencoding::encode`: letters, digits and `-_.~` stay, every other byte becomes `%XX`. -/
def urlEncode (s : Str) : Str :=
  (utf8 s).flatMap (fun b =>
    let c := Char.ofNat b.toNat
    if b.toNat < 128 && (isAlnum c || c == '-' || c == '_' || c == '.' || c == '~') then [c]
    else ['%', hexUpper (b.toNat / 16), hexUpper (b.toNat % 16)])

/-- sip-uac lib.rs 2896-2906: the Refer-To value of `create_refer_with_replaces`. -/
def referToReplacing (target : SipUri) (d : Dlg.DialogId) : Str :=
  '<' :: target.raw ++ "?Replaces=".toList ++
    (urlEncode d.callId ++ ";to-tag=".toList ++ urlEncode d.remoteTag ++ ";from-tag=".toList ++ urlEncode d.localTag) ++ ['>']

end Siphon.Sub
