import Verif.Core.Uri
/-!
# Finding the servers for a URI

Model of `crates/sip-dns/src/lib.rs` up to the resolvers (the DHCP decoders are in `Dhcp.lean`, `enum_lookup.rs` in
`Enum.lean`). The DNS is an arbitrary input: for every query it gives an error or a list of records, and the same query may
be answered differently when it is made again. Random numbers are an arbitrary input too. Texts of names and services stand
for the result of hickory's `to_utf8` and of `from_utf8_lossy`. A query that times out is one that is answered by an error.
-/
namespace Siphon.Dns

/-- lib.rs 86-99 `Transport`, in the order of its `Ord`. -/
inductive Transport | udp | tcp | tls | ws | wss | sctp | tlsSctp
  deriving DecidableEq, Repr

/-- The place of a transport in the derived order. -/
def Transport.rank : Transport → Nat
  | .udp => 0 | .tcp => 1 | .tls => 2 | .ws => 3 | .wss => 4 | .sctp => 5 | .tlsSctp => 6

/-- lib.rs 113-120 `as_proto_str` -/
def Transport.proto : Transport → Str
  | .udp => "udp".toList
  | .tcp | .tls => "tcp".toList
  | .ws | .wss => "tcp".toList
  | .sctp | .tlsSctp => "sctp".toList

/-- lib.rs 133-139 `as_service_str` -/
def Transport.service (t : Transport) (sips : Bool) : Str :=
  match t with
  | .tls | .wss | .tlsSctp => "_sips".toList
  | _ => if sips then "_sips".toList else "_sip".toList

/-- lib.rs 172-187 `DnsTarget` -/
structure Target where
  host : Str
  port : Nat
  transport : Transport
  priority : Nat := 0
  tlsName : Option Str := none
  deriving DecidableEq, Repr

/-- lib.rs 277-279 `sni` -/
def Target.sni (t : Target) : Str :=
  match t.tlsName with
  | some n => n
  | none => t.host

/-- lib.rs 44 -/
def MAX_TARGETS_PER_QUERY : Nat := 100

/-- lib.rs 303-312 `enforce_target_limit` -/
def enforceLimit (ts : List Target) : Option (List Target) :=
  if ts.length > MAX_TARGETS_PER_QUERY then none else some ts

/-- An IP address: its family and its text. -/
structure Ip where
  v6 : Bool
  text : Str
  deriving DecidableEq, Repr

/-- A record of an answer. -/
inductive Answer
  | naptr (order preference : Nat) (services replacement : Str)
  | srv (priority weight port : Nat) (target : Str)
  | other
  deriving DecidableEq, Repr

/-- The DNS: answers to NAPTR queries, to the n-th SRV query, and to address queries, by the name asked for. -/
structure Net where
  naptr : Str → Option (List Answer)
  srv : Nat → Str → Option (List Answer)
  ip : Str → Option (List Ip)

/-- `IpAddr::from_str` succeeds (lib.rs 432-434 `is_numeric_ip`). -/
def isNumericIp (h : Str) : Bool := readIpv4 h == some [] || isIpv6 h

/-- lib.rs 401-409, the reading of a transport parameter (the same at 420-428 and 541-549). -/
def transportOf (v : Str) : Transport :=
  let v := lower v
  if v = "tcp".toList then .tcp
  else if v = "tls".toList then .tls
  else if v = "ws".toList then .ws
  else if v = "wss".toList then .wss
  else if v = "sctp".toList then .sctp
  else if v = "tls-sctp".toList then .tlsSctp
  else .udp

/-- lib.rs 416-429 `transport_param` -/
def transportParam (u : SipUri) : Option Transport :=
  match u.params.get "transport".toList with
  | some (some v) => some (transportOf v)
  | _ => none

/-- lib.rs 394-413 `default_transport` -/
def defaultTransport (u : SipUri) : Transport :=
  if u.sips then .tls
  else
    match u.params.get "transport".toList with
    | some (some v) => transportOf v
    | _ => .udp

/-- lib.rs 533-555 `default_transport_order` -/
def defaultTransportOrder (u : SipUri) : List Transport :=
  if u.sips then [.tls]
  else
    match u.params.get "transport".toList with
    | some (some v) => [transportOf v]
    | _ => [.tcp, .udp]

/-! ## NAPTR -/

/-- `str::contains` for a text. -/
def hasSub (p : Str) : Str → Bool
  | [] => p.isEmpty
  | c :: s => p.isPrefixOf (c :: s) || hasSub p s

/-- `trim_end_matches('.')` -/
def trimDots (s : Str) : Str := (s.reverse.dropWhile (fun c => decide (c = '.'))).reverse

/-- lib.rs 315-321 `NaptrRecord` -/
structure NaptrRecord where
  order : Nat
  preference : Nat
  transport : Transport
  replacement : Option Str
  deriving DecidableEq, Repr

/-- lib.rs 588-607: the transport of a service. -/
def serviceTransport (services : Str) : Option Transport :=
  let s := upper services
  if hasSub "SIPS+D2T".toList s then some .tls
  else if hasSub "SIP+D2T".toList s then some .tcp
  else if hasSub "SIP+D2U".toList s then some .udp
  else if hasSub "SIPS+D2W".toList s then some .wss
  else if hasSub "SIP+D2W".toList s then some .ws
  else if hasSub "SIPS+D2S".toList s then some .tlsSctp
  else if hasSub "SIP+D2S".toList s then some .sctp
  else none

/-- lib.rs 610-614: another transport is asked for. -/
def excluded : Option Transport → Transport → Bool
  | some a, t => decide (t ≠ a)
  | none, _ => false

/-- lib.rs 582-631: the record that is made of an answer. -/
def naptrRecord (allowed : Option Transport) : Answer → Option NaptrRecord
  | .naptr order preference services replacement =>
    match serviceTransport services with
    | none => none
    | some t =>
      if excluded allowed t then none
      else if replacement = ".".toList then none
      else
        let r := trimDots replacement
        some ⟨order, preference, t, if r.isEmpty then none else some r⟩
  | _ => none

/-- The derived order of `Option<SmolStr>`: at most. -/
def optLe : Option Str → Option Str → Bool
  | none, _ => true
  | some _, none => false
  | some a, some b => !strLt b a

/-- The derived order of `NaptrRecord` (lib.rs 315): at most. -/
def NaptrRecord.le (a b : NaptrRecord) : Bool :=
  if a.order ≠ b.order then a.order < b.order
  else if a.preference ≠ b.preference then a.preference < b.preference
  else if a.transport ≠ b.transport then a.transport.rank < b.transport.rank
  else optLe a.replacement b.replacement

/-- Insertion into a sorted list, before the records that are not smaller. -/
def insertRecord (x : NaptrRecord) : List NaptrRecord → List NaptrRecord
  | [] => [x]
  | y :: ys => if x.le y then x :: y :: ys else y :: insertRecord x ys

/-- `sort` (lib.rs 639) -/
def sortRecords : List NaptrRecord → List NaptrRecord
  | [] => []
  | x :: xs => insertRecord x (sortRecords xs)

/-- lib.rs 558-643 `lookup_naptr`; `none` is an error. -/
def lookupNaptr (net : Net) (host : Str) (allowed : Option Transport) : Option (List NaptrRecord) :=
  match net.naptr (host ++ ['.']) with
  | none => none
  | some answers =>
    let records := answers.filterMap (naptrRecord allowed)
    if records.isEmpty then none else some (sortRecords records)

/-! ## SRV -/

/-- Weight, host and port of an SRV record. -/
abbrev SrvRec := Nat × Str × Nat

/-- The next random number. -/
def draw : List Nat → Nat × List Nat
  | [] => (0, [])
  | x :: xs => (x, xs)

/-- lib.rs 780-786: the first record at which the sum of the weights exceeds `pick`. -/
def position : List SrvRec → Nat → Nat → Option Nat
  | [], _, _ => none
  | r :: rs, pick, cumulative =>
    if cumulative + r.1 > pick then some 0 else (position rs pick (cumulative + r.1)).map (· + 1)

/-- lib.rs 771-788: the index of the next record, `x` being the random number. -/
def chooseIdx (records : List SrvRec) (x : Nat) : Nat :=
  let total := (records.map (fun r => r.1)).sum
  if total = 0 then x % records.length
  else
    match position records (x % total) 0 with
    | some i => i
    | none => 0

/-- lib.rs 770-792: the loop of `select_by_weight` (the first argument is fuel, at least the number of records). `remove`
would panic for an index out of range, which does not occur. -/
def selectGo : Nat → List SrvRec → List Nat → List (Str × Nat) × List Nat
  | 0, _, rng => ([], rng)
  | f + 1, records, rng =>
    if records.isEmpty then ([], rng)
    else
      let (x, rng) := draw rng
      let i := chooseIdx records x
      match records[i]? with
      | none => ([], rng)
      | some r =>
        let (out, rng) := selectGo f (records.eraseIdx i) rng
        ((r.2.1, r.2.2) :: out, rng)

/-- lib.rs 762-795 `select_by_weight` -/
def selectByWeight (records : List SrvRec) (rng : List Nat) : List (Str × Nat) × List Nat :=
  selectGo records.length records rng

/-- lib.rs 680-684: `entry(priority).or_default().push(..)` of a `BTreeMap`, which is the list of its entries in order. -/
def addGroup (p : Nat) (r : SrvRec) : List (Nat × List SrvRec) → List (Nat × List SrvRec)
  | [] => [(p, [r])]
  | (q, rs) :: t =>
    if p = q then (q, rs ++ [r]) :: t
    else if p < q then (p, [r]) :: (q, rs) :: t
    else (q, rs) :: addGroup p r t

/-- lib.rs 670-685: the groups of an answer. -/
def groups : List Answer → List (Nat × List SrvRec) → List (Nat × List SrvRec)
  | [], g => g
  | .srv p w port target :: as, g =>
    if target = ".".toList then groups as g
    else
      let t := trimDots target
      if t.isEmpty then groups as g else groups as (addGroup p (w, t, port) g)
  | _ :: as, g => groups as g

/-- lib.rs 688-695: the targets of the groups. -/
def groupTargets (transport : Transport) : List (Nat × List SrvRec) → List Nat → List Target × List Nat
  | [], rng => ([], rng)
  | (p, rs) :: g, rng =>
    let (sel, rng) := selectByWeight rs rng
    let (out, rng) := groupTargets transport g rng
    (sel.map (fun h => { host := h.1, port := h.2, transport := transport, priority := p }) ++ out, rng)

/-- lib.rs 652-654: the name that is asked for. -/
def srvName (host : Str) (transport : Transport) (sips : Bool) : Str :=
  transport.service sips ++ "._".toList ++ transport.proto ++ ".".toList ++ host

/-- lib.rs 646-705 `lookup_srv`, as the `n`-th SRV query; `none` is an error. -/
def lookupSrv (net : Net) (n : Nat) (host : Str) (transport : Transport) (sips : Bool) (rng : List Nat) :
    Option (List Target) × List Nat :=
  match net.srv n (srvName host transport sips) with
  | none => (none, rng)
  | some answers =>
    let (ts, rng) := groupTargets transport (groups answers []) rng
    (if ts.isEmpty then none else some ts, rng)

/-- lib.rs 481-504, the loops over SRV lookups. -/
def srvAll (net : Net) (sips : Bool) : Nat → List (Str × Transport) → List Nat → List Target
  | _, [], _ => []
  | n, (h, t) :: qs, rng =>
    match lookupSrv net n h t sips rng with
    | (some ts, rng) => ts ++ srvAll net sips (n + 1) qs rng
    | (none, rng) => srvAll net sips (n + 1) qs rng

/-! ## Addresses -/

/-- lib.rs 728-737: IPv6 and IPv4 in turn. -/
def interleave : List Ip → List Ip → List Ip
  | [], bs => bs
  | a :: as, [] => a :: as
  | a :: as, b :: bs => a :: b :: interleave as bs

/-- lib.rs 708-745 `lookup_a_aaaa` -/
def lookupIp (net : Net) (host : Str) : Option (List Ip) :=
  match net.ip host with
  | none => none
  | some ips =>
    let r := interleave (ips.filter (fun i => i.v6)) (ips.filter (fun i => !i.v6))
    if r.isEmpty then none else some r

/-- lib.rs 461-463, 511-520: the target for an address of the host. -/
def ipTarget (u : SipUri) (port : Nat) (ip : Ip) : Target :=
  { host := ip.text, port := port, transport := defaultTransport u, tlsName := some u.host }

/-- lib.rs 443, 509, 1215 -/
def defaultPort (u : SipUri) : Nat := if u.sips then 5061 else 5060

/-- lib.rs 481-504: the SRV lookups, by host and transport. -/
def srvQueries (u : SipUri) : Option (List NaptrRecord) → List (Str × Transport)
  | some records => records.map (fun r => ((match r.replacement with | some h => h | none => u.host), r.transport))
  | none => (defaultTransportOrder u).map (fun t => (u.host, t))

/-- lib.rs 437-530 `resolve_internal` of `SipResolver`; `none` is an error. -/
def resolve (net : Net) (enableNaptr : Bool) (u : SipUri) (rng : List Nat) : Option (List Target) :=
  if isNumericIp u.host then
    enforceLimit [{ host := u.host, port := (match u.port with | some p => p | none => defaultPort u),
                    transport := defaultTransport u }]
  else
    match u.port with
    | some port =>
      match lookupIp net u.host with
      | none => none
      | some ips => enforceLimit (ips.map (ipTarget u port))
    | none =>
      let override := if u.sips then some Transport.tls else transportParam u
      let naptr := if enableNaptr then lookupNaptr net u.host override else none
      let targets := srvAll net u.sips 0 (srvQueries u naptr) rng
      if targets.isEmpty then
        match lookupIp net u.host with
        | none => none
        | some ips =>
          let ts := ips.map (ipTarget u (defaultPort u))
          if ts.isEmpty then none else enforceLimit ts
      else enforceLimit targets

/-! ## Servers from DHCP -/

/-- lib.rs 944-949 `DhcpSipServer`; an IPv4 address is its text. -/
inductive DhcpServer
  | domain (name : Str)
  | ipv4 (text : Str)
  deriving DecidableEq, Repr

/-- lib.rs 1208-1234 (and 1288-1313): the targets of the servers; `none` is the error of `with_host`. The inner resolver
may answer the `n`-th question as it likes. -/
def dhcpTargets (inner : Nat → SipUri → Option (List Target)) (u : SipUri) : Nat → List DhcpServer → Option (List Target)
  | _, [] => some []
  | n, .ipv4 a :: ss =>
    (dhcpTargets inner u n ss).map
      (fun ts => { host := a, port := defaultPort u, transport := defaultTransport u } :: ts)
  | n, .domain d :: ss =>
    match u.withHost d with
    | none => none
    | some u' =>
      match inner n u'.withoutPort with
      | some ts => (dhcpTargets inner u (n + 1) ss).map (fun rest => ts ++ rest)
      | none => dhcpTargets inner u (n + 1) ss

/-- lib.rs 1191-1241 `resolve_internal` of `DhcpResolver`; the provider gives an error (`none`), nothing (`some none`) or
servers. -/
def dhcpResolve (provider : Option (Option (List DhcpServer))) (inner : Nat → SipUri → Option (List Target)) (u : SipUri) :
    Option (List Target) :=
  match provider with
  | some (some servers) =>
    if servers.isEmpty then none
    else
      match dhcpTargets inner u 0 servers with
      | none => none
      | some ts => if ts.isEmpty then none else enforceLimit ts
  | _ => none

/-- What the inner resolver answers, limited. -/
def limited : Option (List Target) → Option (List Target)
  | none => none
  | some ts => enforceLimit ts

/-- lib.rs 1278-1323 `resolve` of `HybridResolver`. The fallback is one more question to the inner resolver. -/
def hybridResolve (provider : Option (Option (List DhcpServer))) (inner : Nat → SipUri → Option (List Target)) (u : SipUri) :
    Option (List Target) :=
  match provider with
  | some (some servers) =>
    if servers.isEmpty then limited (inner 0 u)
    else
      match dhcpTargets inner u 0 servers with
      | none => none
      | some ts => if ts.isEmpty then limited (inner servers.length u) else enforceLimit ts
  | _ => limited (inner 0 u)

/-- lib.rs 825-830 `resolve` of `StaticResolver` -/
def staticResolve (targets : List Target) : Option (List Target) := enforceLimit targets

end Siphon.Dns
