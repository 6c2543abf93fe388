import Verif.Dialog.TimerSpec
import Verif.Dialog.UacSpec
/-!
# What the properties of new and updated dialogs are about
-/
namespace Siphon.Dlg.Spec
open TextSpec HdrSpec

/-- The text of the address in a header value: between the first `<` and the next `>`, or, without a `<`, all up to
the first semicolon; without the space around it. -/
inductive AddrText : Str → Str → Prop
  | bracketed {v a x b s} : Strips isWs v (a ++ '<' :: x ++ '>' :: b) → '<' ∉ a → '>' ∉ x → Strips isWs x s →
      AddrText v s
  | bare {v t p ps s} : Strips isWs v t → '<' ∉ t → Pieces ';' t (p :: ps) → Strips isWs p s → AddrText v s

/-- The header value is an address with the URI `u`. -/
def AddrUri (v : Str) (u : SipUri) : Prop := ∃ s, AddrText v s ∧ SipUri.parse s = some u

/-- How many angle brackets are open at the end of a text. -/
def level (s : Str) : Nat := s.foldl (fun n c => if c = '<' then n + 1 else if c = '>' then n - 1 else n) 0

/-- A comma after this text separates two values: it is outside quotes and angle brackets. -/
def Closed (s : Str) : Prop := s.count '"' % 2 = 0 ∧ level s = 0

/-- No comma of the text separates values. -/
def NoTop (s : Str) : Prop := ∀ a b, s = a ++ ',' :: b → ¬ Closed a

/-- `ps` are the pieces of a text between its separating commas. -/
inductive TopPieces : Str → List Str → Prop
  | last {p} : NoTop p → TopPieces p [p]
  | cons {p rest ps} : NoTop p → Closed p → TopPieces rest ps → TopPieces (p ++ ',' :: rest) (p :: ps)

/-- `es` are the pieces without the space around them, leaving out the empty ones. -/
inductive Cleaned : List Str → List Str → Prop
  | nil : Cleaned [] []
  | keep {p e ps es} : Strips isWs p e → e ≠ [] → Cleaned ps es → Cleaned (p :: ps) (e :: es)
  | drop {p ps es} : Strips isWs p [] → Cleaned ps es → Cleaned (p :: ps) es

/-- The values of several headers of one name, in order. -/
inductive Values : List Str → List Str → Prop
  | nil : Values [] []
  | cons {v vs ps es fs} : TopPieces v ps → Cleaned ps es → Values vs fs → Values (v :: vs) (es ++ fs)

/-- `us` are the URIs of those values that are addresses, in order. -/
inductive UrisOf : List Str → List SipUri → Prop
  | nil : UrisOf [] []
  | take {v u vs us} : AddrUri v u → UrisOf vs us → UrisOf (v :: vs) (u :: us)
  | skip {v vs us} : (∀ u, ¬ AddrUri v u) → UrisOf vs us → UrisOf (v :: vs) us

/-- A URI the dialog accepts: user part and host and, if there is one, a port fit into 512 bytes. -/
def ShortUri (u : SipUri) : Prop :=
  (∀ x, u.user = some x → utf8Len x + utf8Len u.host + (if u.port = none then 0 else 6) ≤ 502) ∧
  (u.user = none → utf8Len u.host + (if u.port = none then 0 else 6) ≤ 502)

/-- The route set that Record-Route headers give: the URIs of their values, at most 50 and all short.  The limit is
checked before each value, also before one that is no address. -/
def Routes (hs : Headers) (us : List SipUri) : Prop :=
  ∃ hv vs, Selects "Record-Route".toList hs.inner hv ∧ Values hv vs ∧ UrisOf vs us ∧ (∀ u ∈ us, ShortUri u) ∧
    ∀ pre v post early, vs = pre ++ v :: post → UrisOf pre early → early.length < 50

/-- The first Contact of a message is an address with the URI `u`. -/
def ContactOf (hs : Headers) (u : SipUri) : Prop := ∃ v, First hs "Contact" v ∧ AddrUri v u

/-- The remote target: the URI of the Contact if there is one, or else `other`. -/
def TargetOf (hs : Headers) (other u : SipUri) : Prop :=
  ContactOf hs u ∨ (∀ w, ¬ ContactOf hs w) ∧ u = other

/-- The session timer of a message: interval and refresher, or nothing. -/
def TimerOf (hs : Headers) (n : Option Nat) (role : Option Role) : Prop :=
  (∃ k, n = some k ∧ Asks hs k role) ∨ (∀ k r, ¬ Asks hs k r) ∧ n = none ∧ role = none

/-- What a new dialog records, apart from who is who.  `code` is the code of the response, `cseq` the number of the
request, `peer` the message of the peer, `answer` the response. -/
structure Records (code : Nat) (peer answer : Headers) (l r : SipUri) (d : Dialog) : Prop where
  state : (100 ≤ code ∧ code ≤ 199 ∧ d.state = .early) ∨ (200 ≤ code ∧ code ≤ 299 ∧ d.state = .confirmed)
  target : TargetOf peer r d.remoteTarget
  timer : TimerOf answer d.sessionExpires d.refresher
  localUri : d.localUri = l
  remoteUri : d.remoteUri = r
  short : ShortUri l ∧ ShortUri r ∧ ShortUri d.remoteTarget
  secure : d.secure = true ↔ l.sips = true ∨ r.sips = true
  noAck : d.lastAck = none

end Siphon.Dlg.Spec
