import Verif.Pool.Model
/-!
# Specification for connection pools
-/
namespace Siphon.Pool

/-- Peers of a `ConnectionPool`: a TCP address or a WebSocket URL. -/
inductive Peer
  | tcp (addr : Nat)
  | ws (url : Nat)
  deriving DecidableEq, Repr

/-- A pool for TCP and WebSockets. -/
def tcpWs (max idle : Nat) (shard : Peer → Nat) : Cfg Peer where
  max := max
  idle := idle
  evictable p := match p with | .tcp _ => true | .ws _ => false
  alike _ _ := false
  reports p := match p with | .tcp _ => true | .ws _ => false
  shard := shard

/-- A pool for TLS; a key is an address and a server name. -/
def tls (max idle : Nat) (shard : Nat × Nat → Nat) : Cfg (Nat × Nat) where
  max := max
  idle := idle
  evictable _ := true
  alike a b := a.1 == b.1
  reports _ := true
  shard := shard

variable {K : Type}

/-- Calls that have a slot and are opening a connection. -/
def opens (t : Task K) : Bool :=
  match t.pc with
  | .connecting | .connected _ => true
  | _ => false

/-- The call has not returned. -/
def pending (t : Task K) : Bool :=
  match t.pc with
  | .done _ => false
  | _ => true

/-- The call has returned `Ok`, and its message was put into the channel of this connection. -/
def Sent (s : State K) (i c : Nat) : Prop := ∃ key, s.tasks[i]? = some ⟨key, .done (some c)⟩

/-- Nothing was sent over the connection for longer than allowed. -/
def Idle (cfg : Cfg K) (s : State K) (e : Entry) : Prop := e.lastUsed + cfg.idle < s.now

/-- Why an action drops the entry of a key. -/
inductive Cause [DecidableEq K] (cfg : Cfg K) (s : State K) : Act K → K → Prop
  /-- `cleanup_idle`, or the sweeper -/
  | idle {k e} : Tbl.get s.map k = some e → Idle cfg s e → Cause cfg s .cleanup k
  /-- a call that finds no free slot drops what is idle -/
  | idleSlot {k e i key ok hint} : Tbl.get s.map k = some e → Idle cfg s e → s.tasks[i]? = some ⟨key, .clean⟩ →
      Cause cfg s (.task i ok hint) k
  /-- a call that finds no free slot evicts -/
  | evicted {k ks i key ok hint} : s.tasks[i]? = some ⟨key, .evict (k :: ks)⟩ → Cause cfg s (.task i ok hint) k
  /-- another call to the same peer has opened a connection too -/
  | replaced {k i c ok hint} : s.tasks[i]? = some ⟨k, .connected c⟩ → Cause cfg s (.task i ok hint) k
  /-- a call has found the connection that was there before closed -/
  | failed {k i key first ok hint} : s.tasks[i]? = some ⟨key, .failed k first⟩ → Cause cfg s (.task i ok hint) k
  | closed {k i ok hint} : s.tasks[i]? = some ⟨k, .closed⟩ → Cause cfg s (.task i ok hint) k
  /-- a connection to the same peer, which need not be this one, has ended -/
  | ended {k c x} : s.conns[c]? = some x → x.key = k → x.writer ≠ .running → Cause cfg s (.supervise c) k

/-- A run in which no socket fails, nobody asks for a cleanup, there is a free slot at every step, and each peer has one call at a
time. -/
def Calm [DecidableEq K] (cfg : Cfg K) (s : State K) : List (Act K) → Prop
  | [] => True
  | a :: as =>
    0 < s.avail ∧ (∀ c, a ≠ .exit c) ∧ a ≠ .cleanup ∧
    (∀ (i j : Nat) (t u : Task K), s.tasks[i]? = some t → s.tasks[j]? = some u → pending t = true → pending u = true →
      t.key = u.key → i = j) ∧
    (∀ s', step cfg s a = some s' → Calm cfg s' as)

end Siphon.Pool
