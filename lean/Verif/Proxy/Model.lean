import Verif.Proxy.Cancel
import Verif.Base.Table
import Verif.Base.Sort
/-!
# Forking proxy

Model of `crates/sip-proxy/src/stateful.rs` (1-1046) and `service.rs` (1-255).

* Maps (`HashMap`, `DashMap`) are association lists; their iteration order shows only in the order of added
  challenge headers and of the CANCEL requests, and no theorem speaks about that order.
* A context is handled by several tasks in the real program; each call takes several locks one after the
  other.  Here each call is split into those sections (`touch`, `settle`, `choose`, `cancelOthers`,
  `result`); `processResponse` runs them without interruption, `Verif.Proxy.Race` interleaves them.
* Times: Timer C is a one-shot timer, armed by `touch`; the model keeps the list of armed branches, and the
  history says when it fires.  Creation times matter only to `cleanupOld`.
* A target URI is represented by its text.
-/
namespace Siphon.Proxy

/-- stateful.rs 43 -/
def MAX_BRANCHES_PER_CONTEXT : Nat := 50
/-- stateful.rs 44 -/
def MAX_PROXY_CONTEXTS : Nat := 10000
/-- stateful.rs 45 -/
def MAX_TARGETS_PER_REQUEST : Nat := 100
/-- stateful.rs 42 -/
def MAX_BRANCH_ID_LENGTH : Nat := 128

/-- stateful.rs 58-72 `ProxyError` (payloads dropped). -/
inductive ProxyError | idTooLong | idControl | tooManyBranches | tooManyContexts | tooManyTargets | terminatedBy6xx
  deriving DecidableEq, Repr

/-- stateful.rs 102-113 `validate_branch_id` (`char::is_control`). -/
def validBranchId (b : Str) : Bool := !(utf8Len b > MAX_BRANCH_ID_LENGTH) && !b.any isControl

/-- stateful.rs 168-183 `BranchInfo` (the id is the key of the map, the creation time is never read). -/
structure Branch where
  target : Str
  state : BranchState
  best : Option Response
  deriving DecidableEq, Repr

/-- stateful.rs 263-310 `ProxyContext`. -/
structure Ctx where
  original : Request
  proxyHost : Str
  transport : Str
  branches : Tbl Str Branch
  bestFinal : Option Response
  outstanding : Nat
  terminated : Bool
  /-- branches whose Timer C is running -/
  armed : List Str
  /-- what was written to the response channel -/
  channel : List Response
  deriving DecidableEq, Repr

/-- stateful.rs 340-367 `with_timer_c`. -/
def Ctx.new (original : Request) (proxyHost transport : Str) : Ctx :=
  { original := original, proxyHost := proxyHost, transport := transport, branches := [], bestFinal := none,
    outstanding := 0, terminated := false, armed := [], channel := [] }

/-- stateful.rs 377-390: the part of `add_branch` under the lock. -/
def Ctx.insertBranch (c : Ctx) (id : Str) (b : Branch) : Except ProxyError Unit × Ctx :=
  if c.branches.length ≥ MAX_BRANCHES_PER_CONTEXT then (.error .tooManyBranches, c)
  else (.ok (), { c with branches := c.branches.insert id b, outstanding := c.outstanding + 1 })

/-- stateful.rs 372-391 `add_branch`. -/
def Ctx.addBranch (c : Ctx) (id : Str) (b : Branch) : Except ProxyError Unit × Ctx :=
  if c.terminated then (.error .terminatedBy6xx, c) else c.insertBranch id b

/-- 200-299 -/
def is2xx (r : Response) : Bool := 200 ≤ r.code && r.code < 300
/-- 600-699 -/
def is6xx (r : Response) : Bool := 600 ≤ r.code && r.code < 700
/-- stateful.rs 416 -/
def isFinal (r : Response) : Bool := r.code ≥ 200

/-- stateful.rs 432-446: new state of the branch. -/
def Branch.next (b : Branch) (r : Response) : Branch :=
  { b with
    state := if 100 ≤ r.code ∧ r.code < 200 then .proceeding else if isFinal r then .completed else b.state
    best := some r }

/-- stateful.rs 425-453: the section under the lock of the branches; `none`: no such branch. -/
def Ctx.touch (c : Ctx) (id : Str) (r : Response) : Option Ctx :=
  match c.branches.get id with
  | none => none
  | some b =>
    some { c with
      branches := c.branches.update id (·.next r)
      armed := if 100 ≤ r.code ∧ r.code < 200 ∧ b.state = .trying then c.armed ++ [id] else c.armed }

/-- stateful.rs 459-464: one branch less outstanding. -/
def Ctx.settle (c : Ctx) : Ctx := { c with outstanding := c.outstanding - 1 }

/-- stateful.rs 845-876 `select_best_response`. -/
def selectBest (current : Option Response) (new : Response) : Bool :=
  match current with
  | none => true
  | some cur =>
    if new.code / 100 = 6 then true
    else if cur.code / 100 = 6 then false
    else if new.code / 100 = 2 then true
    else if cur.code / 100 = 2 then false
    else if new.code / 100 < cur.code / 100 then true
    else false

/-- stateful.rs 478-486: the section under the lock of the best response. -/
def Ctx.choose (c : Ctx) (r : Response) : Bool × Ctx :=
  if selectBest c.bestFinal r then (true, { c with bestFinal := some r }) else (false, c)

/-- stateful.rs 607-612: the branch is still open. -/
def BranchState.isOpen : BranchState → Bool
  | .completed | .cancelled => false
  | _ => true

/-- stateful.rs 602-624 `cancel_other_branches`. -/
def Ctx.cancelOthers (c : Ctx) (winner : Str) : Ctx :=
  { c with branches := c.branches.map (fun e =>
      if e.1 ≠ winner ∧ e.2.state.isOpen then (e.1, { e.2 with state := .cancelled }) else e) }

/-- stateful.rs 573-588: values not yet in the list are appended. -/
def addNew : List Str → List Str → List Str
  | seen, [] => seen
  | seen, v :: vs => addNew (if seen.contains v then seen else seen ++ [v]) vs

/-- stateful.rs 573-588: the values of one header over all branches that answered 401 or 407. -/
def collect (name : Str) : Tbl Str Branch → List Str → List Str
  | [], seen => seen
  | e :: t, seen =>
    collect name t (match e.2.best with
      | some r => if r.code = 401 ∨ r.code = 407 then addNew seen (r.headers.getAll name) else seen
      | none => seen)

/-- stateful.rs 592-597: push each value, ignoring errors. -/
def pushAll (name : Str) : List Str → Headers → Headers
  | [], hs => hs
  | v :: vs, hs => pushAll name vs (match hs.push name v with | .ok hs => hs | .error _ => hs)

/-- stateful.rs 551-598 `aggregate_auth_challenges`. -/
def Ctx.aggregate (c : Ctx) (best : Response) : Response :=
  let www := "WWW-Authenticate".toList
  let proxy := "Proxy-Authenticate".toList
  let www0 := best.headers.getAll www
  let proxy0 := best.headers.getAll proxy
  let hs := pushAll www ((collect www c.branches www0).drop www0.length) best.headers
  let hs := pushAll proxy ((collect proxy c.branches proxy0).drop proxy0.length) hs
  { best with headers := hs }

/-- stateful.rs 519-541: with nothing outstanding, the best response, with all challenges. -/
def Ctx.result (c : Ctx) : Option Response :=
  if c.outstanding = 0 then
    match c.bestFinal with
    | some best => some (if best.code = 401 ∨ best.code = 407 then c.aggregate best else best)
    | none => none
  else none

/-- stateful.rs 411-542 `process_response`: the response to forward upstream, and the context. -/
def Ctx.processResponse (c : Ctx) (id : Str) (r : Response) : Option Response × Ctx :=
  match c.touch id r with
  | none => (none, c)
  | some c =>
    if !isFinal r then (some r, c)
    else
      let c := c.settle
      let (should, c) := c.choose r
      if should && is2xx r then (some r, c.cancelOthers id)
      else if should && is6xx r then (some r, { c with terminated := true }.cancelOthers id)
      else (c.result, c)

/-- stateful.rs 731-744 and 799-808: the response made up by the proxy itself (`None` if it cannot be
built, which does not happen: the headers come from a request and are five). -/
def synthetic (code : Nat) (reason : String) (req : Request) : Option Response :=
  let hs := ["Via", "From", "To", "Call-ID", "CSeq"].foldl (fun (hs : Headers) (n : String) =>
    match req.headers.get n.toList with
    | some v => (match hs.push n.toList v with | .ok hs => hs | .error _ => hs)
    | none => hs) Headers.empty
  match Response.new code reason.toList hs [] with
  | .ok r => some r
  | .error _ => none

/-- stateful.rs 714-757 `fire_timer_c`, called by the task of 826-840. -/
def Ctx.timerC (c : Ctx) (id : Str) : Ctx :=
  if c.armed.contains id then
    let c := { c with armed := c.armed.erase id }
    match c.branches.get id with
    | none => c
    | some b =>
      if b.state ≠ .proceeding then c
      else
        match synthetic 408 "Request Timeout" c.original with
        | none => c
        | some r =>
          let (o, c) := c.processResponse id r
          match o with
          | some f => { c with channel := c.channel ++ [f] }
          | none => c
  else c

/-- stateful.rs 782-820 `report_transport_error`. -/
def Ctx.transportError (c : Ctx) (id : Str) : Option Response × Ctx :=
  match c.branches.get id with
  | none => (none, c)
  | some b =>
    if !b.state.isOpen then (none, c)
    else
      match synthetic 503 "Service Unavailable" c.original with
      | none => (none, c)
      | some r =>
        let (o, c) := c.processResponse id r
        match o with
        | some f => (o, { c with channel := c.channel ++ [f] })
        | none => (o, c)

/-- stateful.rs 629-650 `build_cancel_requests`. -/
def Ctx.cancels (c : Ctx) (template : Request) : List Request :=
  c.branches.filterMap (fun e =>
    if e.2.state = .cancelled ∨ e.2.state = .trying ∨ e.2.state = .proceeding then
      some { prepareCancel template e.1 with uri := e.2.target }
    else none)

/-- stateful.rs 653-657 `best_response_is_2xx`. -/
def Ctx.bestIs2xx (c : Ctx) : Option Bool := c.bestFinal.map is2xx

/-- stateful.rs 660-664 `prepare_ack_forward`, service.rs 204-206 `forward_ack`. -/
def Ctx.forwardAck (c : Ctx) (ack : Request) : Request := prepareAck ack (ackType ack c.bestIs2xx)

/-! ## Forwarding -/

/-- What may happen to a call besides its result. -/
inductive Res (α : Type)
  | ok (a : α)
  | err
  | panic
  deriving DecidableEq

/-- stateful.rs 998-1028 `prepare_forward`, for the branch drawn. -/
def prepareForward (r : Request) (target host transport : Str) (recordRoute : Bool) (proxyUri : Option SipUri)
    (branch : Str) : Res Request :=
  match checkMaxForwards { r with uri := target } with
  | none => .err
  | some r =>
    match addVia r host transport branch with
    | none => .panic
    | some r =>
      match recordRoute, proxyUri with
      | true, some u =>
        match addRecordRoute r u with
        | none => .panic
        | some r => .ok r
      | _, _ => .ok r

/-- stateful.rs 1037-1044 `prepare_response`. -/
def prepareResponse (r : Response) : Response := { r with headers := removeTopVia r.headers }

/-! ## The table of contexts -/

/-- stateful.rs 879-890 `StatefulProxy`: contexts by client branch, with their creation times (the Timer C
duration is not modelled). -/
abbrev Contexts := Tbl Str (Ctx × Nat)

/-- stateful.rs 913-944 `start_context`. -/
def startContext (t : Contexts) (clientBranch : Str) (c : Ctx) (now : Nat) : Except ProxyError Unit × Contexts :=
  if t.length ≥ MAX_PROXY_CONTEXTS then (.error .tooManyContexts, t)
  else (.ok (), t.insert clientBranch (c, now))

/-- stateful.rs 960-962 `remove_context`. -/
def removeContext (t : Contexts) (clientBranch : Str) : Contexts := t.remove clientBranch

/-- stateful.rs 965-969 `cleanup_old`, times in seconds, interval 300. -/
def cleanupOld (t : Contexts) (now : Nat) : Contexts := t.filter (fun e => now - e.2.2 < 300)

/-! ## The service -/

/-- stateful.rs 117-126 `ProxyTarget`.  The q-value is given by its bit pattern, which for numbers between
0 and 1 is ordered as the numbers are (1.0 is `0x3F800000`); `NaN` is left out. -/
structure Target where
  uri : Str
  priority : Nat
  q : Nat
  deriving DecidableEq, Repr

/-- stateful.rs 251-260 `ForkMode`. -/
inductive ForkMode | parallel | sequential | none
  deriving DecidableEq, Repr

/-- bit pattern of 1.0 -/
def Q_ONE : Nat := 0x3F800000

/-- service.rs 133-141: the order of trying, lower priority first, then higher q. -/
def Target.key (t : Target) : Nat := t.priority * (Q_ONE + 1) + (Q_ONE - t.q)

/-- service.rs 130-145: the targets tried. -/
def chosenTargets (mode : ForkMode) (ts : List Target) : List Target :=
  match mode with
  | .parallel => ts
  | .sequential => (sortBy Target.key ts).take 1
  | .none => ts.take 1

/-- service.rs 236-255 `extract_top_via_branch` on the pieces of the Via value: the byte range `..7` of a
piece is compared, which panics if byte 7 is inside a character. -/
def topBranch : List Str → Res Str
  | [] => .err
  | p :: ps =>
    let t := trim p
    if utf8Len t ≥ 7 then
      match splitBytes 7 t with
      | none => .panic
      | some (a, b) =>
        if eqIgnoreCase a "branch=".toList then (if isValidBranch b then .ok b else .err) else topBranch ps
    else topBranch ps
where
  /-- split a text at a byte offset; `none` if it is inside a character -/
  splitBytes : Nat → Str → Option (Str × Str)
    | 0, s => some ([], s)
    | _ + 1, [] => none
    | n + 1, c :: s => if c.utf8Size ≤ n + 1 then (splitBytes (n + 1 - c.utf8Size) s).map (fun p => (c :: p.1, p.2)) else none
  termination_by _ s => s.length

/-- service.rs 146-168: one branch per target that can be prepared; `draws` are the branch tokens. -/
def forkLoop (r : Request) (host transport : Str) (rr : Bool) (proxyUri : Option SipUri) :
    List Target → List Str → Ctx → List (Str × Request) → Res (Ctx × List (Str × Request))
  | [], _, c, out => .ok (c, out)
  | _ :: _, [], _, _ => .err
  | t :: ts, b :: bs, c, out =>
    match prepareForward r t.uri host transport rr proxyUri b with
    | .panic => .panic
    | .err => forkLoop r host transport rr proxyUri ts bs c out
    | .ok q =>
      if !validBranchId b then .err
      else
        match c.addBranch b { target := t.uri, state := .trying, best := none } with
        | (.error _, _) => .err
        | (.ok (), c) => forkLoop r host transport rr proxyUri ts bs c (out ++ [(b, q)])

/-- service.rs 86-171 `start_forking`: the context made (also registered by `startContext` under the branch
of the client, not repeated here) and the requests to send. -/
def startForking (r : Request) (targets : List Target) (host transport : Str) (rr : Bool)
    (proxyUri : Option SipUri) (mode : ForkMode) (draws : List Str) : Res (Ctx × List (Str × Request)) :=
  if targets.length > MAX_TARGETS_PER_REQUEST then .err
  else if (r.headers.get "Call-ID".toList).isNone then .err
  else
    match r.headers.getHeader "Via".toList with
    | none => .err
    | some via =>
      match topBranch (splitChar ';' via.value) with
      | .panic => .panic
      | .err => .err
      | .ok _ => forkLoop r host transport rr proxyUri (chosenTargets mode targets) draws (Ctx.new r host transport) []

/-- service.rs 210-234 `build_cancel_template`, for the branch drawn; `none` is a panic. -/
def cancelTemplate (original : Request) (host transport branch : Str) : Option Request :=
  let hs := (original.headers.remove "Content-Type".toList).1
  let hs := (hs.remove "Content-Length".toList).1
  match addVia { method := .cancel, uri := original.uri, headers := hs, body := [] } host transport branch with
  | none => none
  | some c =>
    match c.headers.get "CSeq".toList with
    | none => some c
    | some v =>
      match splitOnce ' ' v with
      | none => some c
      | some (num, _) =>
        match c.headers.setOrPush "CSeq".toList (num ++ " CANCEL".toList) with
        | .ok hs => some { c with headers := hs }
        | .error _ => some c

/-- service.rs 173-201 `handle_branch_response`: response to forward, CANCEL requests to send, context;
`none` is a panic. -/
def handleBranchResponse (c : Ctx) (id : Str) (r : Response) (branch : Str) :
    Option (Option Response × List Request × Ctx) :=
  let (f, c) := c.processResponse id r
  match f with
  | some x =>
    if is2xx x then
      match cancelTemplate c.original c.proxyHost c.transport branch with
      | none => none
      | some t => some (f, c.cancels t, c)
    else some (f, [], c)
  | none => some (f, [], c)

/-! ## Histories -/

/-- One call on a context. -/
inductive Op
  | add (id target : Str)
  | response (id : Str) (r : Response)
  | timerC (id : Str)
  | transportError (id : Str)

/-- The context after the call, and what the call makes go upstream.  (`report_transport_error` both returns
its response and writes it to the channel; it counts once.) -/
def Ctx.step (c : Ctx) : Op → Option Response × Ctx
  | .add id t =>
    if validBranchId id then (none, (c.addBranch id { target := t, state := .trying, best := none }).2) else (none, c)
  | .response id r => c.processResponse id r
  | .timerC id =>
    let c' := c.timerC id
    (c'.channel[c.channel.length]?, c')
  | .transportError id => c.transportError id

/-- A history: what went upstream, in order, and the final context. -/
def Ctx.run (c : Ctx) : List Op → List Response × Ctx
  | [] => ([], c)
  | o :: os =>
    let (f, c) := c.step o
    let (fs, c) := c.run os
    (f.toList ++ fs, c)

end Siphon.Proxy
