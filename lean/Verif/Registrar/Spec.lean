import Verif.Registrar.Model
import Verif.Auth.Spec
import Verif.Base.TextSpec
/-!
# Specification vocabulary for the registrar

Only data types of the model and the store's public `lookup` are used.
-/
namespace Siphon.Registrar.Spec
open Siphon.HdrSpec Siphon.TextSpec Siphon.Auth.Spec

/-! ## Histories of store operations -/

/-- Clock readings of an operation, first and last. -/
def start : StoreOp → Nat
  | .upsert _ t => t
  | .remove _ _ t => t
  | .removeAll _ t => t
  | .lookup _ t _ => t
  | .cleanup t => t

def finish : StoreOp → Nat
  | .lookup _ _ t => t
  | op => start op

/-- The clock never goes back: the operations happen one after the other, from `T` on, and the last one
is over at `T'`. -/
def Timed : Nat → List StoreOp → Nat → Prop
  | T, [], T' => T ≤ T'
  | T, op :: ops, T' => T ≤ start op ∧ start op ≤ finish op ∧ Timed (finish op) ops T'

/-- What one completed operation does to the registration of `contact` under `aor`.  `ok` tells whether
the call returned `Ok`. -/
def after (aor contact : Str) (op : StoreOp) (ok : Bool) (cur : Option (Binding × Nat)) :
    Option (Binding × Nat) :=
  match op with
  | .upsert b t => if ok = true ∧ b.aor = aor ∧ b.contact = contact then some (b, t) else cur
  | .remove a c _ => if a = aor ∧ c = contact then none else cur
  | .removeAll a _ => if a = aor then none else cur
  | .lookup _ _ _ => cur
  | .cleanup _ => cur

/-- The latest registration of `contact` under `aor` in a history of calls and their outcomes: the
binding and when it was made. -/
def latest (aor contact : Str) : List (StoreOp × Bool) → Option (Binding × Nat)
  | [] => none
  | h => go h none
where
  go : List (StoreOp × Bool) → Option (Binding × Nat) → Option (Binding × Nat)
    | [], cur => cur
    | (op, ok) :: h, cur => go h (after aor contact op ok cur)

/-- Did the call return `Ok`? -/
def succeeds (s : Store) : StoreOp → Bool
  | .upsert b t => (s.upsert b t).1.isOk
  | _ => true

/-- The calls of a history with their outcomes. -/
def trace (s : Store) : List StoreOp → List (StoreOp × Bool)
  | [] => []
  | op :: ops => (op, succeeds s op) :: trace (s.step op) ops

/-- From `now` on nobody can tell the two stores apart by looking up bindings. -/
def SameBindings (now : Nat) (s s' : Store) : Prop :=
  ∀ aor t₁ t₂, now ≤ t₁ → t₁ ≤ t₂ → (s'.lookup aor t₁ t₂).1 = (s.lookup aor t₁ t₂).1

/-! ## What a REGISTER says -/

/-- The parameter `p` (`name` or `name=value`) is about `name`. -/
def Named (p name : Str) : Prop :=
  (∃ k v k', p = k ++ '=' :: v ∧ '=' ∉ k ∧ Strips isWs k k' ∧ SameName k' name) ∨
  ('=' ∉ p ∧ ∃ k', Strips isWs p k' ∧ SameName k' name)

/-- The parameter `p` reads `name=value`. -/
def Valued (p name value : Str) : Prop :=
  ∃ k v k', p = k ++ '=' :: v ∧ '=' ∉ k ∧ Strips isWs k k' ∧ SameName k' name ∧ Strips isWs v value ∧ value ≠ []

/-- In the parameters `sec`, separated by semicolons, the first one about `name` has this value. -/
def Param (sec name value : Str) : Prop :=
  ∃ before p later, Pieces ';' sec (before ++ p :: later) ∧ Valued p name value ∧ ∀ q ∈ before, ¬ Named q name

/-- No parameter is about `name`. -/
def NoParam (sec name : Str) : Prop := ∃ ps, Pieces ';' sec ps ∧ ∀ q ∈ ps, ¬ Named q name

/-- A Contact value, with its URI and the text of its parameters: `display <uri>;params` or
`uri;params`. -/
def ContactOf (v uri sec : Str) : Prop :=
  ∃ t, Strips isWs v t ∧ uri ≠ [] ∧
    ((∃ pre u, t = pre ++ '<' :: (u ++ '>' :: sec) ∧ '<' ∉ pre ∧ '>' ∉ u ∧ Strips isWs u uri) ∨
     ('<' ∉ t ∧ ∃ u, t = u ++ sec ∧ ';' ∉ u ∧ (sec = [] ∨ sec.head? = some ';') ∧ Strips isWs u uri))

/-- The Contact value `v` is about the contact `uri`. -/
def About (v uri : Str) : Prop := ∃ sec, ContactOf v uri sec

/-- The expiry, in seconds, that a Contact with parameters `sec` is given: its own parameter, else the
Expires header, else the default. -/
def Wanted (hs : Headers) (dflt : Nat) (sec : Str) (n : Nat) : Prop :=
  (∃ e, Param sec "expires".toList e ∧ Decimal e n) ∨
  (NoParam sec "expires".toList ∧ ∃ e more, Selects "Expires".toList hs.inner (e :: more) ∧ Decimal e n) ∨
  (NoParam sec "expires".toList ∧ Selects "Expires".toList hs.inner [] ∧ n = dflt)

/-- The Contact value `v` asks for `uri` to be bound for `n` seconds. -/
def Asks (hs : Headers) (dflt : Nat) (v uri : Str) (n : Nat) : Prop :=
  ∃ sec, ContactOf v uri sec ∧ Wanted hs dflt sec n

/-- `ps` are the elements of a comma-separated list: no comma outside quotes in any of them, and all
but the last end outside quotes. -/
def Elements (raw : Str) (ps : List Str) : Prop :=
  ∃ init last, ps = init ++ [last] ∧ raw = joinCommas ps ∧ (∀ p ∈ init, Element p) ∧
    ∀ a b, last = a ++ ',' :: b → quoteState a ≠ .outside

/-- The elements that are not blank, without surrounding white space, in order. -/
inductive Nonblank : List Str → List Str → Prop
  | nil : Nonblank [] []
  | drop {p ps qs} : Strips isWs p [] → Nonblank ps qs → Nonblank (p :: ps) qs
  | keep {p q ps qs} : Strips isWs p q → q ≠ [] → Nonblank ps qs → Nonblank (p :: ps) (q :: qs)

/-- `vs` are the values listed by header values `raws`, in order. -/
inductive Listed : List Str → List Str → Prop
  | nil : Listed [] []
  | cons {raw ps qs raws vs} : Elements raw ps → Nonblank ps qs → Listed raws vs → Listed (raw :: raws) (qs ++ vs)

/-- `vs` are the Contact values of a message. -/
def Contacts (hs : Headers) (vs : List Str) : Prop :=
  ∃ raws, Selects "Contact".toList hs.inner raws ∧ Listed raws vs

/-- A CSeq value of a REGISTER with number `n`. -/
def CSeqOf (v : Str) (n : Nat) : Prop :=
  ∃ num method more, Words v (num :: method :: more) ∧ Decimal num n ∧ SameName method "REGISTER".toList

/-- `id` is the user part of the address-of-record `aor`: `sip:id@host`, `sips:id@host`, or the number of
`tel:id` up to its parameters. -/
def UserOf (aor id : Str) : Prop :=
  (∃ scheme host, (scheme = "sip".toList ∨ scheme = "sips".toList) ∧ aor = scheme ++ ':' :: (id ++ '@' :: host)
    ∧ '@' ∉ id) ∨
  (∃ ps, aor = "tel:".toList ++ (id ++ ps) ∧ id ≠ [] ∧ ';' ∉ id ∧ (ps = [] ∨ ps.head? = some ';'))

/-- The binding `x` is what the Contact value `v` of a REGISTER with headers `hs` asks for, apart from the
address and the lifetime; `n` is the number of seconds asked for. -/
structure AsAsked (w : World) (hs : Headers) (dflt : Nat) (v : Str) (n : Nat) (x : Binding) : Prop where
  uri : Asks hs dflt v x.contact n
  callId : ∃ more, Selects "Call-ID".toList hs.inner (x.callId :: more)
  cseq : ∃ t more, Selects "CSeq".toList hs.inner (t :: more) ∧ CSeqOf t x.cseq
  q : ∃ sec, ContactOf v x.contact sec ∧
    ((NoParam sec "q".toList ∧ x.q = ['1']) ∨ ∃ t, Param sec "q".toList t ∧ w.qText t = some x.q)
  instanceId : ∃ sec, ContactOf v x.contact sec ∧
    ((NoParam sec "+sip.instance".toList ∧ x.instanceId = none) ∨
      ∃ t, Param sec "+sip.instance".toList t ∧ x.instanceId = some t)
  regId : ∃ sec, ContactOf v x.contact sec ∧
    ((NoParam sec "reg-id".toList ∧ x.regId = none) ∨
      ∃ t m, Param sec "reg-id".toList t ∧ Decimal t m ∧ x.regId = some m)
  userAgent : (Selects "User-Agent".toList hs.inner [] ∧ x.userAgent = none) ∨
    ∃ t more, Selects "User-Agent".toList hs.inner (t :: more) ∧ x.userAgent = some t
  path : (Selects "Path".toList hs.inner [] ∧ x.path = none) ∨
    ((∃ t more, Selects "Path".toList hs.inner (t :: more)) ∧ ∃ p, parsePath hs = some p ∧ x.path = some p)
  flowToken : x.flowToken = none

/-- How a 200 shows a binding: `contact;expires=seconds;q=value`. -/
def contactLine (x : Binding) : Str :=
  x.contact ++ ";expires=".toList ++ showNat (x.expires / SEC) ++
    (if x.expires / SEC = 0 then [] else ";q=".toList ++ x.q)

/-- Instants at which requests are handled and the store is used: the clock does not go back. -/
def RegTimed : Nat → List RegOp → Nat → Prop
  | T, [], T' => T ≤ T'
  | T, .register _ d :: ops, T' => T ≤ d.now ∧ RegTimed d.now ops T'
  | T, .store op :: ops, T' => T ≤ start op ∧ start op ≤ finish op ∧ RegTimed (finish op) ops T'

/-- The address-of-record that the first To header names (`NameAddr::parse`, `normalize_aor`). -/
def ToNames (hs : Headers) (aor : Str) : Prop :=
  ∃ to more n, Selects "To".toList hs.inner (to :: more) ∧ parseNameAddr to = some n ∧ normalizeAor n.uri = some aor

end Siphon.Registrar.Spec
