import Verif.Daemon.Model
import Verif.Proxy.Helpers
import Verif.Manager.Model
/-!
# The daemon as a proxy (C126 to C129)

Model of the proxy mode of `bins/siphond`: `proxy_utils.rs`, `proxy_state.rs`, `handle_proxy` of `handlers/invite.rs` (835-1070), the
proxy branches of `handlers/{bye,cancel,info,message,prack,update}.rs`, and the parts of `main.rs` that pass on an ACK (595-613) and a
response (736-845) and clean up (417-424).

The daemon is a transition system.  An event is a request other than ACK that the transaction layer hands over, an ACK, a response
from the network or a tick of the clean-up.  As in `Verif/Daemon`, `main.rs` hands over every request it receives, also a
retransmission.  Random values, the time, the answers of the location store and of the authenticator come with the event; SHA-256 is
an arbitrary function.

Simplifications: what a handler does is one step (it waits only while it sends); a send that fails is only logged, and an output is an
attempt; the names looked up are written in full, for which `sip_parse::header` is `Headers::get`; requests with other methods have no
effect here.  A panic or an error ends the handler: what was stored before stays, nothing more is put out.
-/
namespace Siphon.Relay
open Siphon.Proxy (addVia addRecordRoute checkMaxForwards removeTopVia addViaLoop detectLoopHashed firstPiece)
open Siphon.Manager (TransportKind branchFromVia)
open Siphon.Sub (Addr)
open Siphon.Bridge (socketOf Lookup firstFound keysFor)
open Siphon.Daemon (Gate noHops exempt bare)

/-- The configuration (`config.local_uri`), SHA-256, and what the daemon can send with: a UDP socket, a TLS client configuration
(with the feature `tls`), the feature `ws`; and `format!("{}:{}", addr.ip(), addr.port())` of the standard library. -/
structure Cfg where
  localUri : Str
  sha : Bytes → Bytes
  udp : Bool
  tls : Bool
  ws : Bool
  showAddr : Addr × Nat → Str

/-- sip-transaction manager.rs 198-217 `TransportContext`: where a request came from.  The stream is a number. -/
structure Ctx where
  transport : TransportKind
  peer : Addr × Nat
  stream : Option Nat
  wsUri : Option Str
  deriving DecidableEq, Repr

/-- proxy_state.rs 21-44 `ProxyTransaction`; the branch is the key of the map. -/
structure Tx where
  sender : Ctx
  callId : Str
  born : Nat
  deriving DecidableEq, Repr

/-- Where a message is sent to. -/
inductive Dest
  | udp (a : Addr × Nat)
  /-- a new connection -/
  | tcp (a : Addr × Nat)
  /-- a new connection, with the name expected in the certificate -/
  | tls (name : Str) (a : Addr × Nat)
  /-- a new connection to this URL -/
  | ws (secure : Bool) (url : Str)
  /-- the connection the request came over -/
  | stream (id : Nat)
  deriving DecidableEq, Repr

/-- What the daemon does. -/
inductive Out
  | provisional (txn : Nat) (r : Response)
  | final (txn : Nat) (r : Response)
  | request (d : Dest) (rq : Request)
  | response (d : Dest) (r : Response)
  /-- `transaction_mgr.receive_response` -/
  | up (r : Response)
  deriving DecidableEq, Repr

/-! ## Headers -/

/-- `let _ = headers.push(name, value)`. -/
def pushed (hs : Headers) (n v : Str) : Headers :=
  match hs.push n v with
  | .ok hs => hs
  | .error _ => hs

/-- proxy_utils.rs 27-39 `strip_hop_by_hop_request_headers`. -/
def stripAuth : List Header → Headers → Headers
  | [], out => out
  | h :: t, out =>
    if eqIgnoreCase h.name "Proxy-Authorization".toList || eqIgnoreCase h.name "Proxy-Authenticate".toList then stripAuth t out
    else stripAuth t (pushed out h.name h.value)

/-- proxy_utils.rs 62-67 `extract_first_route`. -/
def firstRoute (hs : Headers) : Option Str := (hs.get "Route".toList).map (fun v => trim (firstPiece ',' (trim v)))

/-- `str::trim_matches(c)`. -/
def trimAll (c : Char) (s : Str) : Str := stripBoth (· == c) s

/-- proxy_utils.rs 69-72 `parse_route_uri`. -/
def routeUri (v : Str) : Option SipUri := SipUri.parse (trimAll '>' (trimAll '<' (trim v)))

/-- proxy_utils.rs 80-81: the value without its first piece. -/
def restOf (v : Str) : Str := trim (TextSpec.join ',' ((splitChar ',' v).drop 1))

/-- proxy_utils.rs 74-91 `remove_top_route`; the flag is `removed`. -/
def removeRoute : List Header → Bool → Headers → Headers
  | [], _, out => out
  | h :: t, removed, out =>
    if !removed && eqIgnoreCase h.name "Route".toList then
      removeRoute t true (if (restOf h.value).isEmpty then out else pushed out h.name (restOf h.value))
    else removeRoute t removed (pushed out h.name h.value)

/-! ## The next hop -/

/-- `uri.port().unwrap_or(5060)`. -/
def portOf (u : SipUri) : Nat :=
  match u.port with
  | some p => p
  | none => 5060

/-- proxy_utils.rs 93-99 `is_route_local`. -/
def isLocal (route me : SipUri) : Bool := eqIgnoreCase me.host route.host && portOf me == portOf route

/-- proxy_utils.rs 124-142 `next_hop_from_request`. -/
def nextHop (rq : Request) (me : SipUri) : SipUri × Bool :=
  let target := SipUri.parse rq.uri
  match (firstRoute rq.headers).bind routeUri with
  | some route =>
    if isLocal route me then ((match target with | some u => u | none => route), true) else (route, false)
  | none => ((match target with | some u => u | none => me), false)

/-- The transport parameter, in lower case. -/
def transportParam (u : SipUri) : Option Str :=
  match u.params.get "transport".toList with
  | some (some v) => some (lower v)
  | _ => none

/-- The transport of that name. -/
def namedTransport (t : Str) : Option TransportKind :=
  if t = "udp".toList then some .udp
  else if t = "tcp".toList then some .tcp
  else if t = "tls".toList then some .tls
  else if t = "ws".toList then some .ws
  else if t = "wss".toList then some .wss
  else none

/-- proxy_utils.rs 101-122 `select_transport`. -/
def selectTransport (u : SipUri) : TransportKind :=
  match transportParam u with
  | some t =>
    match namedTransport t with
    | some k => k
    | none => .udp
  | none => if u.sips then .tls else .udp

/-- invite.rs 992-1005: the transport of an INVITE.  An unknown parameter does not count. -/
def inviteTransport (u : SipUri) : TransportKind :=
  match (transportParam u).bind namedTransport with
  | some k => k
  | none => if u.sips then .tls else .udp

/-- proxy_utils.rs 225-286 and invite.rs 1007-1061: the way to a URI with an address; `none` is an error. -/
def wayTo (c : Cfg) (u : SipUri) (a : Addr × Nat) (k : TransportKind) : Option Dest :=
  match k with
  | .udp => if c.udp then some (.udp a) else none
  | .tcp => some (.tcp a)
  | .tls => if c.tls then some (.tls u.host a) else none
  | .ws => if c.ws then some (.ws false ("ws://".toList ++ u.host ++ ':' :: showNat a.2)) else none
  | .wss => if c.ws then some (.ws true ("wss://".toList ++ u.host ++ ':' :: showNat a.2)) else none
  | .sctp => none
  | .tlsSctp => none

/-! ## Requests -/

/-- proxy_utils.rs 158-163 and invite.rs 869-874: the text between the first two `@` of the local URI. -/
def proxyHost (c : Cfg) : Str :=
  match splitChar '@' c.localUri with
  | _ :: h :: _ => h
  | _ => "localhost".toList

/-- proxy_utils.rs 180-188 and invite.rs 875-883: the transport as written in a Via. -/
def transportName : TransportKind → Str
  | .udp => "UDP".toList
  | .tcp => "TCP".toList
  | .tls => "TLS".toList
  | .ws => "WS".toList
  | .wss => "WSS".toList
  | .sctp => "SCTP".toList
  | .tlsSctp => "TLS-SCTP".toList

/-- proxy_utils.rs 16-19 `ProxyForwardOptions`. -/
structure Opts where
  recordRoute : Bool
  rewrite : Bool
  deriving DecidableEq, Repr

/-- Those of every caller (bye.rs 560-563, cancel.rs 185-188, info.rs 45-48, message.rs 45-48, prack.rs 45-48, update.rs 45-48, main.rs
606-609). -/
def plainOpts : Opts := ⟨false, false⟩

/-- What forwarding does: the branch under which the sender was stored, and the message sent. -/
structure Fwd where
  branch : Option Str
  sent : Option (Dest × Request)
  deriving DecidableEq, Repr

/-- Record-Route is added if wanted and the local URI can be read; `none` is a panic. -/
def recordRoute (c : Cfg) (wanted : Bool) (rq : Request) : Option Request :=
  if wanted then
    match SipUri.parse c.localUri with
    | some me => addRecordRoute rq me
    | none => some rq
  else some rq

/-- proxy_utils.rs 207-288, after the sender is stored. -/
def route (c : Cfg) (o : Opts) (rq : Request) : Option (Dest × Request) :=
  match recordRoute c o.recordRoute rq with
  | none => none
  | some rq =>
    match SipUri.parse c.localUri with
    | none => none
    | some me =>
      let hop := nextHop rq me
      let rq := if hop.2 then { rq with headers := removeRoute rq.headers.inner false .empty } else rq
      let rq := if o.rewrite then { rq with uri := hop.1.raw } else rq
      match socketOf hop.1 with
      | none => none
      | some a => (wayTo c hop.1 a (selectTransport hop.1)).map (fun d => (d, rq))

/-- proxy_utils.rs 144-289 `forward_request`. -/
def forward (c : Cfg) (o : Opts) (rq : Request) (x : Ctx) : Fwd :=
  let rq := { rq with headers := stripAuth rq.headers.inner .empty }
  if !detectLoopHashed c.sha rq (proxyHost c) then ⟨none, none⟩
  else
    match checkMaxForwards rq with
    | none => ⟨none, none⟩
    | some rq =>
      match addViaLoop c.sha rq (proxyHost c) (transportName x.transport) with
      | none => ⟨none, none⟩
      | some (rq, b) => ⟨some b, route c o rq⟩

/-! ## The daemon -/

/-- The senders of the requests passed on, by branch (proxy_state.rs 47-50). -/
structure St where
  txs : Tbl Str Tx

/-- The state at the start. -/
def init : St := ⟨[]⟩

/-- What comes with a request: the time, the branch and the tag drawn, the answer of the authenticator and the rate limiters, the
location store. -/
structure Info where
  now : Nat
  branch : Str
  tag : Str
  gate : Gate
  look : Lookup

/-- The Call-ID (bye.rs 549-551 and the like). -/
def callIdOf (rq : Request) : Str :=
  match rq.headers.get "Call-ID".toList with
  | some c => c
  | none => "unknown".toList

/-- proxy_state.rs 65-67 `store_transaction`. -/
def keep (st : St) (b : Option Str) (x : Ctx) (rq : Request) (now : Nat) : St :=
  match b with
  | some b => ⟨st.txs.insert b ⟨x, callIdOf rq, now⟩⟩
  | none => st

/-- bye.rs 553-567 and the like, main.rs 597-613: the request is passed on.  An error is only logged. -/
def passOn (c : Cfg) (st : St) (rq : Request) (x : Ctx) (now : Nat) : St × List Out :=
  let f := forward c plainOpts rq x
  (keep st f.branch x rq now,
   match f.sent with
   | some (d, rq) => [.request d rq]
   | none => [])

/-- invite.rs 904-1063, after the sender is stored: the answer, or the message sent. -/
def place (c : Cfg) (rq proxied : Request) (look : Lookup) : Option (Response ⊕ Dest × Request) :=
  match recordRoute c true proxied with
  | none => none
  | some proxied =>
    match SipUri.parse proxied.uri with
    | none => none
    | some target =>
      match firstFound look (keysFor target) with
      | [] => some (.inl ⟨404, "Not Found".toList, rq.headers, []⟩)
      | contact :: _ =>
        match SipUri.parse contact with
        | none => none
        | some u =>
          match socketOf u with
          | none => none
          | some a => (wayTo c u a (inviteTransport u)).map (fun d => .inr (d, { proxied with uri := u.raw }))

/-- invite.rs 835-1070 `handle_proxy`. -/
def onInvite (c : Cfg) (st : St) (txn : Nat) (rq : Request) (x : Ctx) (i : Info) : St × List Out :=
  match Uas.createResponse rq.headers 100 "Trying".toList i.tag with
  | .panic => (st, [])
  | .done t =>
    match checkMaxForwards rq with
    | none => (st, [.provisional txn t, .final txn ⟨483, "Too Many Hops".toList, rq.headers, []⟩])
    | some proxied =>
      match addVia proxied (proxyHost c) (transportName x.transport) i.branch with
      | none => (st, [.provisional txn t])
      | some proxied =>
        (keep st (some i.branch) x rq i.now,
         .provisional txn t ::
           (match place c rq proxied i.look with
            | some (.inl r) => [.final txn r]
            | some (.inr (d, q)) => [.request d q]
            | none => []))

/-- dispatcher.rs 38-52: the methods passed on by their handlers. -/
def passed (m : Method) : Bool := [.cancel, .bye, .prack, .update, .info, .message].contains m

/-- dispatcher.rs 172-217 `dispatch`. -/
def dispatch (c : Cfg) (st : St) (txn : Nat) (rq : Request) (x : Ctx) (i : Info) : St × List Out :=
  if noHops rq.headers then (st, [.final txn (bare rq 483 "Too Many Hops")])
  else
    match (if exempt rq.method then .pass else i.gate) with
    | .refused r => (st, [.final txn r])
    | .silent => (st, [])
    | .pass =>
      if rq.method = .invite then onInvite c st txn rq x i
      else if passed rq.method then passOn c st rq x i.now
      else (st, [])

/-- main.rs 746-834: the way back to a sender. -/
def wayBack (c : Cfg) (x : Ctx) : Option Dest :=
  match x.transport with
  | .tcp => some (.tcp x.peer)
  | .ws => if c.ws then some (.ws false (match x.wsUri with | some u => u | none => "ws://".toList ++ c.showAddr x.peer)) else none
  | .wss => if c.ws then some (.ws true (match x.wsUri with | some u => u | none => "wss://".toList ++ c.showAddr x.peer)) else none
  | .udp => if c.udp then some (.udp x.peer) else none
  | .tls => x.stream.map .stream
  | .sctp => none
  | .tlsSctp => none

/-- main.rs 736-845: a response from the network. -/
def onResponse (c : Cfg) (st : St) (r : Response) : St × List Out :=
  match (r.headers.get "Via".toList).bind branchFromVia with
  | none => (st, [.up r])
  | some b =>
    match st.txs.get b with
    | none => (st, [.up r])
    | some tx =>
      (if r.code ≥ 200 then ⟨st.txs.remove b⟩ else st,
       match wayBack c tx.sender with
       | some d => [.response d { r with headers := removeTopVia r.headers }]
       | none => [])

/-- The events. -/
inductive Ev
  | request (txn : Nat) (rq : Request) (x : Ctx) (i : Info)
  | ack (rq : Request) (x : Ctx) (now : Nat)
  | response (r : Response)
  /-- the clean-up, every 60 seconds -/
  | sweep (now : Nat)

/-- The events; the time is in nanoseconds.  proxy_state.rs 83-87 `cleanup_old` with 300 seconds. -/
def step (c : Cfg) (st : St) : Ev → St × List Out
  | .request txn rq x i => dispatch c st txn rq x i
  | .ack rq x now => passOn c st rq x now
  | .response r => onResponse c st r
  | .sweep now => (⟨st.txs.filter (fun p => decide (now - p.2.born < 300 * 1000000000))⟩, [])

/-- The state after a history. -/
def run (c : Cfg) : St → List Ev → St
  | st, [] => st
  | st, e :: es => run c (step c st e).1 es

end Siphon.Relay
