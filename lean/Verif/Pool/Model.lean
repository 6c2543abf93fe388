import Verif.Base.Table
import Verif.Base.Sort
/-!
# Model: connection pools (sip-transport pool.rs)

`ConnectionPool` (TCP and WebSocket) and `TlsPool` are the same program up to the kind of key, which connections may be evicted,
and the reuse of a connection to the same address in `send_tls`. These are the parameters in `Cfg`. Any number of calls,
connections and supervisors run at once; a step is one access to the map, the semaphore or a channel.

Simplifications: a message is named by the number of the call that sends it. A walk over the map (`retain`, `iter`) is one
step. Keep-alive pings, the reader tasks and answers that are written over an incoming packet's `stream` are left out, so are
metrics and captures. `Instant` is a number. A socket is its writer: when it runs, what is on the wire, and that it can fail
at any time.
-/
namespace Siphon.Pool

/-- pool.rs 550, 752, 1169: `mpsc::channel(64)` -/
def CHANNEL : Nat := 64

/-- What makes a pool. -/
structure Cfg (K : Type) where
  /-- pool.rs 337, 901: `max_size`, also the number of permits (383, 958). -/
  max : Nat
  /-- pool.rs 338, 902: `idle_timeout` -/
  idle : Nat
  /-- pool.rs 494-498 walks over the TCP connections only, 1082-1086 over all of the TLS ones. -/
  evictable : K → Bool
  /-- pool.rs 1131-1135: connections of a `TlsPool` that are used for another key; none in a `ConnectionPool`. -/
  alike : K → K → Bool
  /-- pool.rs 577-581, 776, 1190-1194: connections whose end is reported; not the WebSockets. -/
  reports : K → Bool
  /-- The part of the `DashMap` that is locked together with a key. -/
  shard : K → Nat

/-- pool.rs 87-96 `PoolEntry`. The sender and the tasks are those of the connection; each entry has a permit. -/
structure Entry where
  conn : Nat
  lastUsed : Nat
  deriving DecidableEq, Repr

/-- The writer task: pool.rs 174-238, 757-764. -/
inductive Writer
  | running
  /-- It has returned: a write failed, or the channel was closed. -/
  | exited
  /-- It was aborted. -/
  | cancelled
  deriving DecidableEq, Repr

/-- A connection with its channel, writer and supervisor. -/
structure Conn (K : Type) where
  key : K
  queue : List Nat := []
  /-- What has been written to the socket. -/
  wire : List Nat := []
  /-- What has ever been put into the channel. -/
  taken : List Nat := []
  writer : Writer := .running
  aborted : Bool := false
  supervised : Bool := false
  deriving DecidableEq, Repr

/-- Where a call of `send_tcp` (510-692), `send_ws` (707-845) or `send_tls` (1097-1277) is. -/
inductive Pc (K : Type)
  /-- 514, 1107, 1137: before `get_mut` of a key, which is the call's own the first time -/
  | look (k : K) (first : Bool)
  /-- 517, 1109, 1139: waits for room in the channel, and holds the lock on the entry -/
  | waiting (k : K) (c : Nat) (first : Bool)
  /-- 524, 1114, 1143: before `remove`, the channel was closed -/
  | failed (k : K) (first : Bool)
  /-- 1131: looks for a connection to the same address -/
  | search
  /-- 428, 432, 436: before `try_acquire_owned`, for the first, second or third time -/
  | acquire (n : Nat)
  /-- 431: before `cleanup_idle` -/
  | clean
  /-- 494-500: before the list of entries is made -/
  | snapshot
  /-- 503-506: before the removal of these -/
  | evict (ks : List K)
  /-- 533-543: has a permit and opens a socket -/
  | connecting
  /-- 550-680: has a connection that is not in the map -/
  | connected (c : Nat)
  /-- 684: before the message goes into the channel -/
  | sending (c : Nat)
  /-- 689: before `remove`, the channel was closed -/
  | closed
  /-- Returned: `Ok` and the message is in the channel of this connection, or an error. -/
  | done (conn : Option Nat)
  deriving DecidableEq, Repr

structure Task (K : Type) where
  key : K
  pc : Pc K
  deriving DecidableEq, Repr

structure State (K : Type) where
  now : Nat := 0
  /-- Free permits. -/
  avail : Nat
  map : Tbl K Entry := []
  conns : List (Conn K) := []
  tasks : List (Task K) := []
  /-- The events sent: which connection, and whether it is `Failed`. -/
  events : List (Nat × Bool) := []
  deriving DecidableEq, Repr

section
variable {K : Type} [DecidableEq K]

/-- pool.rs 374-389, 952-966 `with_limits` -/
def init (cfg : Cfg K) : State K := { avail := cfg.max }

def State.setPc (s : State K) (i : Nat) (pc : Pc K) : State K :=
  { s with tasks := s.tasks.modify i (fun t => { t with pc := pc }) }

def State.setConn (s : State K) (c : Nat) (f : Conn K → Conn K) : State K := { s with conns := s.conns.modify c f }

/-- pool.rs 98-104, and the permit goes back. -/
def State.drop (s : State K) (e : Entry) : State K :=
  { s.setConn e.conn (fun x => { x with aborted := true }) with avail := s.avail + 1 }

/-- `DashMap::remove`, and the entry is dropped. -/
def State.removeKey (s : State K) (k : K) : State K :=
  match Tbl.get s.map k with
  | none => s
  | some e => ({ s with map := Tbl.remove s.map k } : State K).drop e

/-- `DashMap::insert`, and the entry that was there is dropped. -/
def State.insertKey (s : State K) (k : K) (e : Entry) : State K :=
  { s.removeKey k with map := Tbl.insert (s.removeKey k).map k e }

/-- pool.rs 126-128 `touch` -/
def State.touch (s : State K) (k : K) : State K :=
  { s with map := Tbl.update s.map k (fun e => { e with lastUsed := s.now }) }

/-- pool.rs 130-132 `is_idle` -/
def isIdle (cfg : Cfg K) (s : State K) (e : Entry) : Bool := s.now - e.lastUsed > cfg.idle

/-- pool.rs 464-486, 1062-1074 `cleanup_idle` -/
def cleanup (cfg : Cfg K) (s : State K) : State K :=
  ((s.map.filter (fun p => isIdle cfg s p.2)).map (·.1)).foldl State.removeKey s

/-- pool.rs 491-503, 1079-1091: the keys that `evict_lru` removes. -/
def victims (cfg : Cfg K) (s : State K) : List K :=
  ((sortBy (fun p : K × Entry => p.2.lastUsed) (s.map.filter (fun p => cfg.evictable p.1))).take (max (cfg.max / 10) 1)).map (·.1)

/-- A lock on an entry locks its part of the map. -/
def holds (cfg : Cfg K) (n : Nat) (t : Task K) : Bool :=
  match t.pc with
  | .waiting k _ _ => cfg.shard k == n
  | _ => false

/-- No call holds the lock of this key. -/
def free (cfg : Cfg K) (s : State K) (k : K) : Bool := !s.tasks.any (holds cfg (cfg.shard k))

def holdsAny (t : Task K) : Bool :=
  match t.pc with
  | .waiting _ _ _ => true
  | _ => false

/-- No call holds any lock. -/
def allFree (s : State K) : Bool := !s.tasks.any holdsAny

/-- The message of call `i` goes into the channel of `c`, and the call returns `Ok`. -/
def State.push (s : State K) (c i : Nat) : State K :=
  (s.setConn c (fun x => { x with queue := x.queue ++ [i], taken := x.taken ++ [i] })).setPc i (.done (some c))

/-- What comes after the first or second `remove`: 1131, 427. -/
def afterFailed (first : Bool) : Pc K := if first then .search else .acquire 0

/-- `sender.send(...).await` by call `i` (517, 684, 1109, 1139, 1269): the message goes into the channel, the call waits, or the
channel is closed. -/
def State.offer (s : State K) (i c : Nat) (wait : State K) (closed : State K) : State K :=
  match s.conns[c]? with
  | none => closed
  | some x =>
    match x.writer with
    | .running => if x.queue.length < CHANNEL then s.push c i else wait
    | _ => closed

/-- The next step of call `i`. `ok` says whether a socket is opened, `hint` which connection is found. `none`: it is blocked. -/
def taskStep (cfg : Cfg K) (s : State K) (i : Nat) (ok : Bool) (hint : Option K) : Option (State K) :=
  match s.tasks[i]? with
  | none => none
  | some ⟨_, .look k first⟩ =>
    if !free cfg s k then none
    else
      match Tbl.get s.map k with
      | none => some (s.setPc i (afterFailed first))
      | some e =>
        some ((s.touch k).offer i e.conn ((s.touch k).setPc i (.waiting k e.conn first)) ((s.touch k).setPc i (.failed k first)))
  | some ⟨_, .waiting k c first⟩ => some (s.offer i c s (s.setPc i (.failed k first)))
  | some ⟨_, .failed k first⟩ =>
    if !free cfg s k then none else some ((s.removeKey k).setPc i (afterFailed first))
  | some ⟨key, .search⟩ =>
    match hint with
    | some k =>
      if (Tbl.get s.map k).isSome && cfg.alike key k && free cfg s k then some (s.setPc i (.look k false)) else none
    | none => if s.map.any (fun p => cfg.alike key p.1) || !allFree s then none else some (s.setPc i (.acquire 0))
  | some ⟨_, .acquire n⟩ =>
    if s.avail > 0 then some (({ s with avail := s.avail - 1 } : State K).setPc i .connecting)
    else
      match n with
      | 0 => some (s.setPc i .clean)
      | 1 => some (s.setPc i .snapshot)
      | _ => some (s.setPc i (.done none))
  | some ⟨_, .clean⟩ => if !allFree s then none else some ((cleanup cfg s).setPc i (.acquire 1))
  | some ⟨_, .snapshot⟩ => if !allFree s then none else some (s.setPc i (.evict (victims cfg s)))
  | some ⟨_, .evict []⟩ => some (s.setPc i (.acquire 2))
  | some ⟨_, .evict (k :: ks)⟩ => if !free cfg s k then none else some ((s.removeKey k).setPc i (.evict ks))
  | some ⟨key, .connecting⟩ =>
    if ok then some (({ s with conns := s.conns ++ [({ key := key } : Conn K)] } : State K).setPc i (.connected s.conns.length))
    else some (({ s with avail := s.avail + 1 } : State K).setPc i (.done none))
  | some ⟨key, .connected c⟩ =>
    if !free cfg s key then none else some ((s.insertKey key ⟨c, s.now⟩).setPc i (.sending c))
  | some ⟨key, .sending c⟩ => some (s.offer i c s (s.setPc i .closed))
  | some ⟨key, .closed⟩ => if !free cfg s key then none else some ((s.removeKey key).setPc i (.done none))
  | some ⟨_, .done _⟩ => none

/-- What can happen. -/
inductive Act (K : Type)
  /-- `send_tcp`, `send_ws` or `send_tls` is called -/
  | call (k : K)
  /-- a call goes on -/
  | task (i : Nat) (ok : Bool) (hint : Option K)
  /-- a writer takes a message from its channel and writes it (201-223, 758-763) -/
  | write (c : Nat)
  /-- a writer returns: a write fails (206-211, 228-233, 759-762), or its channel is closed (202-205) -/
  | exit (c : Nat)
  /-- an aborted writer stops -/
  | cancel (c : Nat)
  /-- the supervisor of a writer goes on when it has stopped (252-317) -/
  | supervise (c : Nat)
  /-- `cleanup_idle` is called, or the sweeper of a `TlsPool` wakes up (1013-1034) -/
  | cleanup
  /-- time passes -/
  | tick (d : Nat)
  deriving DecidableEq, Repr

/-- pool.rs 263-317: the supervisor removes what is in the map for the key, and reports. -/
def supervise (cfg : Cfg K) (s : State K) (c : Nat) (x : Conn K) : State K :=
  { (s.removeKey x.key).setConn c (fun y => { y with supervised := true }) with
    events := if cfg.reports x.key then s.events ++ [(c, x.writer == .cancelled)] else s.events }

/-- The next step. `none`: it is not possible now. -/
def step (cfg : Cfg K) (s : State K) : Act K → Option (State K)
  | .call k => some { s with tasks := s.tasks ++ [⟨k, .look k true⟩] }
  | .task i ok hint => taskStep cfg s i ok hint
  | .write c =>
    match s.conns[c]? with
    | none => none
    | some x =>
      match x.writer, x.queue with
      | .running, m :: q => some (s.setConn c (fun x => { x with queue := q, wire := x.wire ++ [m] }))
      | _, _ => none
  | .exit c =>
    match s.conns[c]? with
    | none => none
    | some x => if x.writer = .running then some (s.setConn c (fun x => { x with writer := .exited })) else none
  | .cancel c =>
    match s.conns[c]? with
    | none => none
    | some x =>
      if x.writer = .running ∧ x.aborted = true then some (s.setConn c (fun x => { x with writer := .cancelled })) else none
  | .supervise c =>
    match s.conns[c]? with
    | none => none
    | some x => if x.writer = .running ∨ x.supervised = true ∨ free cfg s x.key = false then none else some (supervise cfg s c x)
  | .cleanup => if !allFree s then none else some (cleanup cfg s)
  | .tick d => some { s with now := s.now + d }

/-- A sequence of steps, each of which is possible. -/
def run (cfg : Cfg K) (s : State K) : List (Act K) → Option (State K)
  | [] => some s
  | a :: as => (step cfg s a).bind (fun s => run cfg s as)

/-- The states a new pool can get into. -/
def Reach (cfg : Cfg K) (s : State K) : Prop := ∃ as, run cfg (init cfg) as = some s

end
end Siphon.Pool
