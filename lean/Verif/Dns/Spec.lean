import Verif.Dns.Model
import Verif.Core.HeadersSpec
import Verif.Base.Num
import Verif.Core.Ipv6Spec
/-!
# What the resolver may answer

The outcomes RFC 2782 and RFC 3263 leave to the resolver as this code reads them, described without the functions of the
model: only its data types and the decimal notation of a number are used.
-/
namespace Siphon.Dns.Spec
open Siphon.HdrSpec (SameName)

/-! ## SRV -/

/-- An SRV record that names a server. -/
structure Srv where
  priority : Nat
  weight : Nat
  host : Str
  port : Nat
  deriving DecidableEq, Repr

/-- `h` is `t` without its final dots. -/
def Bare (t h : Str) : Prop := (∃ n, t = h ++ List.replicate n '.') ∧ ∀ h', h ≠ h' ++ ['.']

/-- The servers named in an answer, in the order of the answer. -/
inductive Usable : List Answer → List Srv → Prop
  | nil : Usable [] []
  | keep {p w port t h as rs} : Bare t h → h ≠ [] → Usable as rs → Usable (.srv p w port t :: as) (⟨p, w, h, port⟩ :: rs)
  | root {p w port t as rs} : Bare t [] → Usable as rs → Usable (.srv p w port t :: as) rs
  | other {a as rs} : (∀ p w port t, a ≠ .srv p w port t) → Usable as rs → Usable (a :: as) rs

/-- Lower priority values first; among equals nothing of weight zero before something of positive weight. -/
def Before (a b : Srv) : Prop := a.priority < b.priority ∨ (a.priority = b.priority ∧ (a.weight = 0 → b.weight = 0))

/-- `out` is an order in which the servers `rs` may be tried. -/
def SrvOrder (rs out : List Srv) : Prop := out.Perm rs ∧ out.Pairwise Before

/-- The target for a server. -/
def srvTarget (t : Transport) (s : Srv) : Target :=
  { host := s.host, port := s.port, transport := t, priority := s.priority }

/-- The targets that may come from an SRV query with answer `a`. -/
def SrvAnswer (a : Option (List Answer)) (t : Transport) (ts : List Target) : Prop :=
  (a = none ∧ ts = []) ∨ ∃ as rs out, a = some as ∧ Usable as rs ∧ SrvOrder rs out ∧ ts = out.map (srvTarget t)

/-- The name asked for: RFC 3263 with the services `_sip` and `_sips`. -/
inductive Asks (sips : Bool) (host : Str) : Transport → Str → Prop
  | udp : Asks sips host .udp ((if sips then "_sips._udp." else "_sip._udp.").toList ++ host)
  | tcp : Asks sips host .tcp ((if sips then "_sips._tcp." else "_sip._tcp.").toList ++ host)
  | tls : Asks sips host .tls ("_sips._tcp.".toList ++ host)
  | ws : Asks sips host .ws ((if sips then "_sips._tcp." else "_sip._tcp.").toList ++ host)
  | wss : Asks sips host .wss ("_sips._tcp.".toList ++ host)
  | sctp : Asks sips host .sctp ((if sips then "_sips._sctp." else "_sip._sctp.").toList ++ host)
  | tlsSctp : Asks sips host .tlsSctp ("_sips._sctp.".toList ++ host)

/-- The targets that may come from the queries `qs`, the first of which is the `n`-th. -/
inductive SrvRun (net : Net) (sips : Bool) : Nat → List (Str × Transport) → List Target → Prop
  | nil {n} : SrvRun net sips n [] []
  | cons {n h t name qs ts rest} : Asks sips h t name → SrvAnswer (net.srv n name) t ts → SrvRun net sips (n + 1) qs rest →
      SrvRun net sips n ((h, t) :: qs) (ts ++ rest)

/-! ## Transports -/

/-- The transports that have a name of their own in a `transport` parameter; every other name is read as UDP. -/
def named : List (Str × Transport) :=
  [("tcp".toList, .tcp), ("tls".toList, .tls), ("ws".toList, .ws), ("wss".toList, .wss), ("sctp".toList, .sctp),
   ("tls-sctp".toList, .tlsSctp)]

/-- The transport a parameter value asks for. -/
def Reads (v : Str) (t : Transport) : Prop :=
  (∃ p ∈ named, SameName v p.1 ∧ t = p.2) ∨ ((∀ p ∈ named, ¬ SameName v p.1) ∧ t = .udp)

/-- The transport a URI insists on: TLS for `sips`, else that of its `transport` parameter, if it has a value. -/
def Insists (u : SipUri) (o : Option Transport) : Prop :=
  (u.sips = true ∧ o = some .tls) ∨
  (u.sips = false ∧ ∃ v t, u.params.get "transport".toList = some (some v) ∧ Reads v t ∧ o = some t) ∨
  (u.sips = false ∧ (∀ v, u.params.get "transport".toList ≠ some (some v)) ∧ o = none)

/-- Without a better idea it is UDP. -/
def orUdp : Option Transport → Transport
  | some t => t
  | none => .udp

/-- Without NAPTR records: what the URI insists on, else TCP and then UDP. -/
def fallbackOrder : Option Transport → List Transport
  | some t => [t]
  | none => [.tcp, .udp]

/-! ## NAPTR -/

/-- `s` has a part that is `p` up to letter case. -/
def Mentions (s p : Str) : Prop := ∃ a m b, s = a ++ m ++ b ∧ SameName m p

/-- The services, in the order in which they are looked for. -/
def services : List (Str × Transport) :=
  [("SIPS+D2T".toList, .tls), ("SIP+D2T".toList, .tcp), ("SIP+D2U".toList, .udp), ("SIPS+D2W".toList, .wss),
   ("SIP+D2W".toList, .ws), ("SIPS+D2S".toList, .tlsSctp), ("SIP+D2S".toList, .sctp)]

/-- The first of the services in `l` that is mentioned has transport `t`. -/
inductive FirstOf (s : Str) : List (Str × Transport) → Transport → Prop
  | here {p t l} : Mentions s p → FirstOf s ((p, t) :: l) t
  | later {p t t' l} : ¬ Mentions s p → FirstOf s l t' → FirstOf s ((p, t) :: l) t'

/-- An answer is a record with transport `t` that leads to `next` (`none`: the host itself). -/
inductive Leads (o : Option Transport) : Answer → NaptrRecord → Prop
  | name {ord pref s r t h} : FirstOf s services t → (∀ x, o = some x → x = t) → Bare r h → h ≠ [] →
      Leads o (.naptr ord pref s r) ⟨ord, pref, t, some h⟩
  | self {ord pref s r t} : FirstOf s services t → (∀ x, o = some x → x = t) → r ≠ ['.'] → Bare r [] →
      Leads o (.naptr ord pref s r) ⟨ord, pref, t, none⟩

/-- The records in an answer. -/
inductive Records (o : Option Transport) : List Answer → List NaptrRecord → Prop
  | nil : Records o [] []
  | keep {a r as rs} : Leads o a r → Records o as rs → Records o (a :: as) (r :: rs)
  | drop {a as rs} : (∀ r, ¬ Leads o a r) → Records o as rs → Records o (a :: as) rs

/-- Texts compared character by character, a shorter one first. -/
inductive TextBefore : Str → Str → Prop
  | nil {b} : TextBefore [] b
  | lt {c d a b} : c.toNat < d.toNat → TextBefore (c :: a) (d :: b)
  | eq {c a b} : TextBefore a b → TextBefore (c :: a) (c :: b)

/-- The order in which records are used: by order, then preference; ties by transport, then by the next name. -/
inductive NoLater : NaptrRecord → NaptrRecord → Prop
  | order {a b} : a.order < b.order → NoLater a b
  | preference {a b} : a.order = b.order → a.preference < b.preference → NoLater a b
  | transport {a b} : a.order = b.order → a.preference = b.preference → a.transport.rank < b.transport.rank → NoLater a b
  | self {a b} : a.order = b.order → a.preference = b.preference → a.transport = b.transport → a.replacement = none →
      NoLater a b
  | name {a b x y} : a.order = b.order → a.preference = b.preference → a.transport = b.transport →
      a.replacement = some x → b.replacement = some y → TextBefore x y → NoLater a b

/-- The SRV query of a record. -/
def query (host : Str) (r : NaptrRecord) : Str × Transport :=
  match r.replacement with
  | some h => (h, r.transport)
  | none => (host, r.transport)

/-- NAPTR is used and its answer has records: these are the queries. -/
def NaptrQueries (net : Net) (enabled : Bool) (host : Str) (o : Option Transport) (qs : List (Str × Transport)) : Prop :=
  enabled = true ∧ ∃ (as : List Answer) (rs sorted : List NaptrRecord), net.naptr (host ++ ['.']) = some as ∧ Records o as rs ∧ rs ≠ [] ∧
    sorted.Perm rs ∧ sorted.Pairwise NoLater ∧ qs = sorted.map (query host)

/-- The SRV queries that are made. -/
def Queries (net : Net) (enabled : Bool) (host : Str) (o : Option Transport) (qs : List (Str × Transport)) : Prop :=
  NaptrQueries net enabled host o qs ∨
  ((∀ q, ¬ NaptrQueries net enabled host o q) ∧ qs = (fallbackOrder o).map (fun t => (host, t)))

/-! ## Addresses -/

/-- A host that is an address. -/
def Numeric (h : Str) : Prop := Ipv6Spec.DottedQuad h ∨ Ipv6Spec.Ipv6Text h

/-- The addresses of both families in turn, beginning with IPv6, each family in its own order. -/
inductive InTurn : List Ip → List Ip → List Ip → Prop
  | v4 {bs} : InTurn [] bs bs
  | v6 {as} : InTurn as [] as
  | both {a b as bs r} : InTurn as bs r → InTurn (a :: as) (b :: bs) (a :: b :: r)

/-- The addresses of `ips` of one family. -/
inductive Family (v6 : Bool) : List Ip → List Ip → Prop
  | nil : Family v6 [] []
  | take {i is r} : i.v6 = v6 → Family v6 is r → Family v6 (i :: is) (i :: r)
  | skip {i is r} : i.v6 ≠ v6 → Family v6 is r → Family v6 (i :: is) r

/-- The addresses of a host as they are tried; nothing if there are none. -/
def Addresses (net : Net) (host : Str) (r : List Ip) : Prop :=
  (net.ip host = none ∧ r = []) ∨
  ∃ ips six four, net.ip host = some ips ∧ Family true ips six ∧ Family false ips four ∧ InTurn six four r

/-- The targets for addresses: TLS is to check the name of the host. -/
def addressTargets (host : Str) (port : Nat) (t : Transport) (ips : List Ip) : List Target :=
  ips.map (fun i => { host := i.text, port := port, transport := t, priority := 0, tlsName := some host })

/-- The default port. -/
def DefaultPort (sips : Bool) (p : Nat) : Prop := (sips = true ∧ p = 5061) ∨ (sips = false ∧ p = 5060)

/-! ## All of it -/

/-- Targets are an answer if there are any and not more than a hundred. -/
def Answers (ts : List Target) (r : Option (List Target)) : Prop :=
  (ts ≠ [] ∧ ts.length ≤ 100 ∧ r = some ts) ∨ ((ts = [] ∨ 100 < ts.length) ∧ r = none)

/-- The answers that are allowed for a URI. -/
inductive Outcome (net : Net) (enabled : Bool) (u : SipUri) : Option (List Target) → Prop
  /-- The host is an address. -/
  | numeric {o p} : Numeric u.host → Insists u o → (u.port = some p ∨ (u.port = none ∧ DefaultPort u.sips p)) →
      Outcome net enabled u (some [{ host := u.host, port := p, transport := orUdp o }])
  /-- The URI has a port: addresses only. -/
  | port {o p ips r} : ¬ Numeric u.host → u.port = some p → Insists u o → Addresses net u.host ips →
      Answers (addressTargets u.host p (orUdp o) ips) r → Outcome net enabled u r
  /-- Servers are found. -/
  | servers {o qs ts r} : ¬ Numeric u.host → u.port = none → Insists u o → Queries net enabled u.host o qs →
      SrvRun net u.sips 0 qs ts → ts ≠ [] → Answers ts r → Outcome net enabled u r
  /-- No servers are found: addresses and the default port. -/
  | addresses {o qs p ips r} : ¬ Numeric u.host → u.port = none → Insists u o → Queries net enabled u.host o qs →
      SrvRun net u.sips 0 qs [] → DefaultPort u.sips p → Addresses net u.host ips →
      Answers (addressTargets u.host p (orUdp o) ips) r → Outcome net enabled u r

end Siphon.Dns.Spec
