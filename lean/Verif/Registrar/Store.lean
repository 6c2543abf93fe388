import Verif.Base.Table
import Verif.Core.NameAddr
/-!
# The location store

Model of `Binding` and `MemoryLocationStore` in `crates/sip-registrar/src/lib.rs` (45-53, 140-230,
463-679, 803-968).  `Instant`s and `Duration`s are natural numbers of nanoseconds.  Every store operation
is one atomic step at the given instant (each takes the map's shard locks); what happens when two
*handlers* interleave between store operations is modelled in `Registrar/Race.lean`.  A `q` value (an
`f32` that is only compared with 0 and 1 and printed) is kept as the text it prints as.
-/
namespace Siphon.Registrar

/-- lib.rs 45 -/
def MAX_AOR_LENGTH : Nat := 512
/-- lib.rs 46 -/
def MAX_CONTACT_LENGTH : Nat := 512
/-- lib.rs 47 -/
def MAX_CALL_ID_LENGTH : Nat := 256
/-- lib.rs 48 -/
def MAX_USER_AGENT_LENGTH : Nat := 256
/-- lib.rs 49 -/
def MAX_BINDINGS_PER_AOR : Nat := 20
/-- lib.rs 50 -/
def MAX_TOTAL_BINDINGS : Nat := 100000
/-- lib.rs 51 -/
def MAX_CSEQ_VALUE : Nat := 2147483647
/-- lib.rs 52 -/
def MIN_EXPIRES_SECS : Nat := 60
/-- lib.rs 53 -/
def MAX_EXPIRES_SECS : Nat := 86400

/-- Nanoseconds in a second (`Duration::from_secs`, `as_secs`). -/
def SEC : Nat := 1000000000

/-- lib.rs 140-151, 154-165, 168-179, 201-212: `validate_aor`, `validate_contact`, `validate_call_id`
and `validate_user_agent` differ only in the limit. -/
def validField (max : Nat) (s : Str) : Bool := utf8Len s ≤ max && !s.any isControl

/-- lib.rs 215-230 `validate_expires`. -/
def validExpires (d : Nat) : Bool := MIN_EXPIRES_SECS ≤ d / SEC && d / SEC ≤ MAX_EXPIRES_SECS

/-- lib.rs 466-513 `Binding`. -/
structure Binding where
  aor : Str
  contact : Str
  expires : Nat
  callId : Str
  cseq : Nat
  q : Str
  userAgent : Option Str
  path : Option (List NameAddr)
  flowToken : Option Str
  instanceId : Option Str
  regId : Option Nat
  deriving DecidableEq, Repr

/-- lib.rs 517-539 `Binding::new`. -/
def Binding.new (aor contact : Str) (expires : Nat) : Option Binding :=
  if validField MAX_AOR_LENGTH aor && validField MAX_CONTACT_LENGTH contact && validExpires expires then
    some { aor := aor, contact := contact, expires := expires, callId := [], cseq := 0, q := ['1'],
           userAgent := none, path := none, flowToken := none, instanceId := none, regId := none }
  else none

/-- lib.rs 542-546 `with_call_id`. -/
def Binding.withCallId (b : Binding) (c : Str) : Option Binding :=
  if validField MAX_CALL_ID_LENGTH c then some { b with callId := c } else none

/-- lib.rs 549-553 `with_cseq`. -/
def Binding.withCseq (b : Binding) (n : Nat) : Option Binding :=
  if n ≤ MAX_CSEQ_VALUE then some { b with cseq := n } else none

/-- lib.rs 563-567 `with_user_agent`. -/
def Binding.withUserAgent (b : Binding) (u : Str) : Option Binding :=
  if validField MAX_USER_AGENT_LENGTH u then some { b with userAgent := some u } else none

/-- lib.rs 809-820 `StoredBinding`. -/
structure Stored where
  contact : Str
  expiresAt : Nat
  callId : Str
  cseq : Nat
  q : Str
  userAgent : Option Str
  path : Option (List NameAddr)
  flowToken : Option Str
  instanceId : Option Str
  regId : Option Nat
  deriving DecidableEq, Repr

/-- lib.rs 803-806 `MemoryLocationStore`: address-of-record to its bindings, oldest first. -/
abbrev Store := Tbl Str (List Stored)

/-- lib.rs 57-86, the errors the store returns. -/
inductive StoreErr | tooManyForAor | tooMany
  deriving DecidableEq, Repr

/-- lib.rs 859, 889-900: the stored form of a binding registered at `now`. -/
def Binding.stored (b : Binding) (now : Nat) : Stored :=
  { contact := b.contact, expiresAt := now + b.expires, callId := b.callId, cseq := b.cseq, q := b.q,
    userAgent := b.userAgent, path := b.path, flowToken := b.flowToken, instanceId := b.instanceId,
    regId := b.regId }

/-- lib.rs 927-943: the binding returned for a stored one, at `now`. -/
def Stored.binding (s : Stored) (aor : Str) (now : Nat) : Binding :=
  { aor := aor, contact := s.contact, expires := s.expiresAt - now, callId := s.callId, cseq := s.cseq,
    q := s.q, userAgent := s.userAgent, path := s.path, flowToken := s.flowToken,
    instanceId := s.instanceId, regId := s.regId }

/-- The bindings listed under an address-of-record (`entry` with `or_default`). -/
def Store.at (s : Store) (aor : Str) : List Stored := match s.get aor with | some l => l | none => []

/-- lib.rs 863: number of bindings in the whole store. -/
def Store.total (s : Store) : Nat := (s.map (fun e => e.2.length)).sum

/-- lib.rs 858-903 `upsert`.  (870 creates an empty entry for an unknown address before the per-address
limit is checked, but the limit cannot be exceeded there.) -/
def Store.upsert (s : Store) (b : Binding) (now : Nat) : Except StoreErr Unit × Store :=
  if s.total ≥ MAX_TOTAL_BINDINGS then (.error .tooMany, s)
  else if ((s.at b.aor).filter (fun x => x.contact != b.contact)).length ≥ MAX_BINDINGS_PER_AOR then
    (.error .tooManyForAor, s)
  else
    (.ok (), s.insert b.aor ((s.at b.aor).filter (fun x => x.contact != b.contact) ++ [b.stored now]))

/-- lib.rs 905-910 `remove`. -/
def Store.removeContact (s : Store) (aor contact : Str) : Store :=
  s.update aor (fun l => l.filter (fun x => x.contact != contact))

/-- lib.rs 912-915 `remove_all`. -/
def Store.removeAll (s : Store) (aor : Str) : Store := s.remove aor

/-- lib.rs 829-833 `purge_expired`. -/
def Store.purge (s : Store) (aor : Str) (now : Nat) : Store :=
  s.update aor (fun l => l.filter (fun x => x.expiresAt > now))

/-- lib.rs 917-951 `lookup`: purge at `t₁`, then read at `t₂` (the clock is read twice). -/
def Store.lookup (s : Store) (aor : Str) (t₁ t₂ : Nat) : List Binding × Store :=
  let s := s.purge aor t₁
  (((s.at aor).filter (fun x => x.expiresAt > t₂)).map (fun x => x.binding aor t₂), s)

/-- lib.rs 953-967 `cleanup_expired`: number removed and new store. -/
def Store.cleanup (s : Store) (now : Nat) : Nat × Store :=
  let kept := s.map (fun e => (e.1, e.2.filter (fun x => x.expiresAt > now)))
  (s.total - Store.total kept, kept.filter (fun e => !e.2.isEmpty))

/-! ## Histories -/

/-- One use of the store. -/
inductive StoreOp
  | upsert (b : Binding) (now : Nat)
  | remove (aor contact : Str) (now : Nat)
  | removeAll (aor : Str) (now : Nat)
  | lookup (aor : Str) (t₁ t₂ : Nat)
  | cleanup (now : Nat)

/-- State after one operation. -/
def Store.step (s : Store) : StoreOp → Store
  | .upsert b now => (s.upsert b now).2
  | .remove aor contact _ => s.removeContact aor contact
  | .removeAll aor _ => s.removeAll aor
  | .lookup aor t₁ t₂ => (s.lookup aor t₁ t₂).2
  | .cleanup now => (s.cleanup now).2

def Store.run (s : Store) (ops : List StoreOp) : Store := ops.foldl Store.step s

end Siphon.Registrar
