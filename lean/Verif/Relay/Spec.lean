import Verif.Relay.Model
import Verif.Proxy.PropsForward
import Verif.Bridge.Spec
import Verif.Daemon.Spec
import Verif.Sub.ReferSpec
/-!
# What the properties of the daemon as a proxy are about

The data types of the model, and no function of it but the parsers of URIs and the hash that is the branch, which have their own
properties.
-/
namespace Siphon.Relay.Spec
open HdrSpec TextSpec
open Siphon.Proxy (loopBranch)
open Siphon.Proxy.FwdSpec (ViaText SentBy BranchIs ViaName RecordRouteText WithoutTopVia)
open Siphon.MfSpec (IsMf Says)
open Siphon.Dlg.Spec (First Absent)
open Siphon.Sub.Spec (Dotted PortOf)
open Siphon.Bridge.Spec (FirstHit)
open Siphon.Manager (TransportKind)
open Siphon.Daemon (Gate)
open Siphon.Daemon.Spec (Hops)

/-! ## What is done to a message -/

/-- Credentials for a proxy, or its challenge. -/
def Credential (h : Header) : Prop := SameName h.name "Proxy-Authorization".toList ∨ SameName h.name "Proxy-Authenticate".toList

/-- `l'` is `l` without the credentials. -/
inductive Stripped : List Header → List Header → Prop
  | nil : Stripped [] []
  | drop {h l l'} : Credential h → Stripped l l' → Stripped (h :: l) l'
  | keep {h l l'} : ¬ Credential h → Stripped l l' → Stripped (h :: l) (h :: l')

/-- `l'` is `l` with Max-Forwards one less, or with a Max-Forwards of 69 at the end. -/
def Lowered (l l' : List Header) : Prop :=
  (∃ pre h post k, l = pre ++ h :: post ∧ IsMf h ∧ (∀ x ∈ pre, ¬ IsMf x) ∧ Says h.value (k + 1) ∧ k + 1 ≤ 255 ∧
    l' = pre ++ ⟨h.name, showNat k⟩ :: post) ∨
  ((∀ h ∈ l, ¬ IsMf h) ∧ l.length < 200 ∧ l' = l ++ [⟨"Max-Forwards".toList, "69".toList⟩])

/-- `l'` is `l` without its first Route value; the header goes if nothing is left of it. -/
def WithoutTopRoute (l l' : List Header) : Prop :=
  ∃ pre h post p ps t, l = pre ++ h :: post ∧ SameName h.name "Route".toList ∧ (∀ x ∈ pre, ¬ SameName x.name "Route".toList) ∧
    Pieces ',' h.value (p :: ps) ∧ Strips isWs (join ',' ps) t ∧
    (t = [] ∧ l' = pre ++ post ∨ t ≠ [] ∧ l' = pre ++ ⟨h.name, t⟩ :: post)

/-! ## Where a request goes -/

/-- The first Route value is `v`. -/
def TopRoute (hs : Headers) (v : Str) : Prop :=
  ∃ w t p ps, First hs "Route" w ∧ Strips isWs w t ∧ Pieces ',' t (p :: ps) ∧ Strips isWs p v

/-- The Route value is this URI, with or without angle brackets. -/
def RouteIs (v : Str) (u : SipUri) : Prop := ∃ a b, Strips (· == '<') v a ∧ Strips (· == '>') a b ∧ SipUri.parse b = some u

/-- The URI has the host and the port of the proxy's own. -/
def Mine (me u : SipUri) : Prop := SameName me.host u.host ∧ ∃ p, PortOf me p ∧ PortOf u p

/-- The URI by which a request is routed, and whether its first Route value is to be removed. -/
inductive NextHop (rq : Request) (me : SipUri) : SipUri → Bool → Prop
  | own {v r u} : TopRoute rq.headers v → RouteIs v r → Mine me r → SipUri.parse rq.uri = some u → NextHop rq me u true
  | ownOpaque {v r} : TopRoute rq.headers v → RouteIs v r → Mine me r → SipUri.parse rq.uri = none → NextHop rq me r true
  | other {v r} : TopRoute rq.headers v → RouteIs v r → ¬ Mine me r → NextHop rq me r false
  | direct {u} : (∀ v r, TopRoute rq.headers v → ¬ RouteIs v r) → SipUri.parse rq.uri = some u → NextHop rq me u false
  | unread : (∀ v r, TopRoute rq.headers v → ¬ RouteIs v r) → SipUri.parse rq.uri = none → NextHop rq me me false

/-- The transports that a `transport` parameter can name. -/
def names : List (String × TransportKind) := [("udp", .udp), ("tcp", .tcp), ("tls", .tls), ("ws", .ws), ("wss", .wss)]

/-- The URI has this transport parameter. -/
def Param (u : SipUri) (v : Str) : Prop := u.params.get "transport".toList = some (some v)

/-- The transport by which a request is sent to the URI: the one it names, UDP for a name that is not known, and without a name TLS
for a `sips` URI and UDP for a `sip` URI. -/
inductive Carrier (u : SipUri) : TransportKind → Prop
  | named {v n k} : Param u v → (n, k) ∈ names → SameName v n.toList → Carrier u k
  | unknown {v} : Param u v → (∀ n k, (n, k) ∈ names → ¬ SameName v n.toList) → Carrier u .udp
  | secure : (∀ v, ¬ Param u v) → u.sips = true → Carrier u .tls
  | plain : (∀ v, ¬ Param u v) → u.sips = false → Carrier u .udp

/-- The same for an INVITE, except that a name that is not known does not count. -/
inductive InviteCarrier (u : SipUri) : TransportKind → Prop
  | named {v n k} : Param u v → (n, k) ∈ names → SameName v n.toList → InviteCarrier u k
  | secure : (∀ v n k, Param u v → (n, k) ∈ names → ¬ SameName v n.toList) → u.sips = true → InviteCarrier u .tls
  | plain : (∀ v n k, Param u v → (n, k) ∈ names → ¬ SameName v n.toList) → u.sips = false → InviteCarrier u .udp

/-- A message for the URI is sent to this place: the IPv4 address written in it and its port (5060 if it has none). -/
inductive Place (c : Cfg) (u : SipUri) : TransportKind → Dest → Prop
  | udp {a b d e p} : c.udp = true → Dotted u.host a b d e → PortOf u p → Place c u .udp (.udp (.v4 a b d e, p))
  | tcp {a b d e p} : Dotted u.host a b d e → PortOf u p → Place c u .tcp (.tcp (.v4 a b d e, p))
  | tls {a b d e p} : c.tls = true → Dotted u.host a b d e → PortOf u p → Place c u .tls (.tls u.host (.v4 a b d e, p))
  | ws {a b d e p} : c.ws = true → Dotted u.host a b d e → PortOf u p →
      Place c u .ws (.ws false ("ws://".toList ++ u.host ++ ":".toList ++ showNat p))
  | wss {a b d e p} : c.ws = true → Dotted u.host a b d e → PortOf u p →
      Place c u .wss (.ws true ("wss://".toList ++ u.host ++ ":".toList ++ showNat p))

/-- What the proxy calls itself in a Via: what stands in its URI between the first and the second `@`. -/
def HostText (c : Cfg) (h : Str) : Prop :=
  (∃ a ps, Pieces '@' c.localUri (a :: h :: ps)) ∨ ((∀ a b ps, ¬ Pieces '@' c.localUri (a :: b :: ps)) ∧ h = "localhost".toList)

/-- The transports as they are written in a Via. -/
def viaName : TransportKind → String
  | .udp => "UDP"
  | .tcp => "TCP"
  | .tls => "TLS"
  | .ws => "WS"
  | .wss => "WSS"
  | .sctp => "SCTP"
  | .tlsSctp => "TLS-SCTP"

/-- A text that can be the value of a header. -/
def Fits (v : Str) : Prop := OneLine v ∧ utf8Len v ≤ 8192

/-! ## Passing on a request -/

/-- A request from `x` may be passed on with branch `b` and headers `hs`: no Via shows that it was here before, Max-Forwards allows
it, and there is room for a Via.  The branch is the hash of the request. -/
structure Admitted (c : Cfg) (rq : Request) (x : Ctx) (b : Str) (hs : List Header) : Prop where
  intro ::
  host : ∃ host l l', HostText c host ∧ b = loopBranch c.sha rq host ∧ Stripped rq.headers.inner l ∧
    (∀ h ∈ l, ViaName h → SentBy h.value host → ¬ BranchIs h.value b) ∧ Lowered l l' ∧
    Fits (ViaText host (viaName x.transport).toList b) ∧ l'.length < 200 ∧
    hs = ⟨"Via".toList, ViaText host (viaName x.transport).toList b⟩ :: l'

/-- The request is sent to `d` as `q`. -/
structure Sent (c : Cfg) (rq : Request) (hs : List Header) (d : Dest) (q : Request) : Prop where
  intro ::
  hop : ∃ me u own k, SipUri.parse c.localUri = some me ∧ NextHop rq me u own ∧ Carrier u k ∧ Place c u k d ∧
    (own = true ∧ WithoutTopRoute hs q.headers.inner ∨ own = false ∧ q.headers.inner = hs)
  method : q.method = rq.method
  uri : q.uri = rq.uri
  body : q.body = rq.body

/-- An INVITE from `x` may be passed on with this branch. -/
structure Called (c : Cfg) (rq : Request) (x : Ctx) (b : Str) (hs : List Header) : Prop where
  intro ::
  host : ∃ host l, HostText c host ∧ Lowered rq.headers.inner l ∧ Fits (ViaText host (viaName x.transport).toList b) ∧ l.length < 200 ∧
    hs = ⟨"Via".toList, ViaText host (viaName x.transport).toList b⟩ :: l

/-- The keys under which the location store is asked for the Request-URI. -/
def Keys (rq : Request) (ks : List Str) : Prop :=
  ∃ target user, SipUri.parse rq.uri = some target ∧ (target.user = some user ∨ target.user = none ∧ user = []) ∧
    ks = [rq.uri, "sip:".toList ++ user ++ '@' :: target.host ++ ";transport=UDP".toList,
      "sip:".toList ++ user ++ '@' :: target.host ++ ";transport=TCP".toList, "sip:".toList ++ user ++ '@' :: target.host]

/-- `l'` is `l` with the Record-Route of the proxy at the end, if its URI can be read. -/
def Marked (c : Cfg) (l l' : List Header) : Prop :=
  (∃ me v, SipUri.parse c.localUri = some me ∧ RecordRouteText me v ∧ Fits v ∧ l.length < 200 ∧
    l' = l ++ [⟨"Record-Route".toList, v⟩]) ∨ (SipUri.parse c.localUri = none ∧ l' = l)

/-- The INVITE is sent to `d` as `q`: to the first contact stored under the first key under which there is any, which becomes the
Request-URI. -/
structure Calls (c : Cfg) (rq : Request) (hs : List Header) (look : Str → List Str) (d : Dest) (q : Request) : Prop where
  intro ::
  found : ∃ ks contact u k, Keys rq ks ∧ FirstHit look ks contact ∧ SipUri.parse contact = some u ∧ InviteCarrier u k ∧ Place c u k d ∧
    q.uri = contact
  method : q.method = rq.method
  headers : Marked c hs q.headers.inner
  body : q.body = rq.body

/-- Nothing is stored under any key. -/
def NotFound (rq : Request) (look : Str → List Str) : Prop := ∃ ks, Keys rq ks ∧ ∀ k ∈ ks, look k = []

/-! ## Histories -/

/-- The request reaches its handler. -/
def Reaches (rq : Request) (gate : Gate) : Prop :=
  Hops rq.headers ∧ (gate = .pass ∨ rq.method ∈ [Method.ack, .cancel, .options, .register])

/-- The event is a request from `x` at time `t` that the proxy takes on with branch `b`. -/
inductive Takes (c : Cfg) (b : Str) (x : Ctx) (t : Nat) : Ev → Prop
  | ack {rq hs} : Admitted c rq x b hs → Takes c b x t (.ack rq x t)
  | passed {txn rq i hs} : i.now = t → Reaches rq i.gate → rq.method ∈ [Method.cancel, .bye, .prack, .update, .info, .message] →
      Admitted c rq x b hs → Takes c b x t (.request txn rq x i)
  | invite {txn rq i hs} : i.now = t → Reaches rq i.gate → rq.method = .invite → i.branch = b →
      (∃ r, Uas.createResponse rq.headers 100 "Trying".toList i.tag = .done r) → Called c rq x b hs → Takes c b x t (.request txn rq x i)

/-- The piece is a branch parameter, its name in any case. -/
def BranchParam (p b : Str) : Prop := ∃ n v m, p = n ++ '=' :: v ∧ '=' ∉ n ∧ Strips isWs n m ∧ SameName m "branch".toList ∧ Strips isWs v b

/-- The top Via has this branch. -/
def TopBranch (hs : Headers) (b : Str) : Prop :=
  ∃ v pre p post, First hs "Via" v ∧ Pieces ';' v (pre ++ p :: post) ∧ pre ≠ [] ∧ BranchParam p b ∧
    ∀ y ∈ pre.tail, ∀ z, ¬ BranchParam y z

/-- The top Via of the response has this branch. -/
def Answers (r : Response) (b : Str) : Prop := TopBranch r.headers b

/-- The event ends what was taken on at `t` with branch `b`: a final response to it, or the clean-up after five minutes. -/
inductive Ends (b : Str) (t : Nat) : Ev → Prop
  | final {r} : Answers r b → 200 ≤ r.code → Ends b t (.response r)
  | old {now} : t + 300 * 1000000000 ≤ now → Ends b t (.sweep now)

/-- After this history (the latest event first), `x` is the sender of the latest request taken on with branch `b`, and that request is
still open. -/
inductive Open (c : Cfg) (b : Str) (x : Ctx) (t : Nat) : List Ev → Prop
  | here {e es} : Takes c b x t e → Open c b x t (e :: es)
  | later {e es} : Open c b x t es → (∀ y s, ¬ Takes c b y s e) → ¬ Ends b t e → Open c b x t (e :: es)

/-- The event brings this request from `x` at time `t`. -/
inductive Brings (rq : Request) (x : Ctx) (t : Nat) : Ev → Prop
  | ack : Brings rq x t (.ack rq x t)
  | request {txn i} : i.now = t → (∀ c ∈ i.branch, isAlnum c = true) → Brings rq x t (.request txn rq x i)

/-- The way back to a sender: by UDP to its address, by TCP in a new connection to its address, by TLS in its connection, by WebSocket
in a new connection to the URL that came with the request or else to its address. -/
inductive Back (c : Cfg) (x : Ctx) : Dest → Prop
  | udp : x.transport = .udp → c.udp = true → Back c x (.udp x.peer)
  | tcp : x.transport = .tcp → Back c x (.tcp x.peer)
  | tls {s} : x.transport = .tls → x.stream = some s → Back c x (.stream s)
  | wsUrl {s u} : x.transport = (if s then .wss else .ws) → c.ws = true → x.wsUri = some u → Back c x (.ws s u)
  | ws {s} : x.transport = (if s then .wss else .ws) → c.ws = true → x.wsUri = none →
      Back c x (.ws s ((if s then "wss://" else "ws://").toList ++ c.showAddr x.peer))

/-- The response without its top Via, and otherwise as it came. -/
def Returned (r r' : Response) : Prop :=
  r'.code = r.code ∧ r'.reason = r.reason ∧ r'.body = r.body ∧ WithoutTopVia r.headers.inner r'.headers.inner

end Siphon.Relay.Spec

namespace Siphon.Relay

/-- The headers of a request are stored as the parser does it. -/
def Ev.Stored : Ev → Prop
  | .request _ rq _ _ => HInv rq.headers
  | .ack rq _ _ => HInv rq.headers
  | _ => True

end Siphon.Relay
