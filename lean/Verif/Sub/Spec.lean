import Verif.Sub.Model
import Verif.Dialog.CreateSpec
/-!
# What the properties of subscriptions are about
-/
namespace Siphon.Sub.Spec
open TextSpec HdrSpec Dlg.Spec

/-! ## The table of subscriptions -/

/-- The calls that change a table of subscriptions. -/
inductive Call
  | insert (s : Sub)
  | remove (id : SubId)
  | cleanup

/-- What the table should hold after calls, said with a list of subscriptions: those inserted while there were fewer than
10 000, each the latest with its identifier, and neither removed nor terminated at a cleanup since. -/
inductive Holds : List Call → List Sub → Prop
  | nil : Holds [] []
  | insert {cs ss s} : Holds cs ss → ss.length < 10000 →
      Holds (cs ++ [.insert s]) (s :: ss.filter (fun x => decide (x.id ≠ s.id)))
  | full {cs ss s} : Holds cs ss → 10000 ≤ ss.length → Holds (cs ++ [.insert s]) ss
  | remove {cs ss id} : Holds cs ss → Holds (cs ++ [.remove id]) (ss.filter (fun x => decide (x.id ≠ id)))
  | cleanup {cs ss} : Holds cs ss → Holds (cs ++ [.cleanup]) (ss.filter (fun x => decide (x.state ≠ .terminated)))

/-! ## Subscriptions from messages -/

/-- A SUBSCRIBE and its answer are about the subscription `id`. -/
structure Named (rq rs : Headers) (id : SubId) : Prop where
  callId : First rq "Call-ID" id.callId
  subscriber : ∃ v, First rq "From" v ∧ TagOf v id.fromTag
  notifier : ∃ v, First rs "To" v ∧ TagOf v id.toTag
  event : First rq "Event" id.event

/-- The message has an Expires header with the 64-bit number `n`. -/
def ExpiresOf (hs : Headers) (n : Nat) : Prop := ∃ v, First hs "Expires" v ∧ Decimal v n ∧ n < 2 ^ 64

/-- The time of a subscription we serve: that of the answer, or else of the request, or else an hour. -/
inductive ServedFor (rq rs : Headers) : Nat → Prop
  | answer {n} : ExpiresOf rs n → ServedFor rq rs n
  | request {n} : Absent rs "Expires" → ExpiresOf rq n → ServedFor rq rs n
  | default : Absent rs "Expires" → Absent rq "Expires" → ServedFor rq rs 3600

/-- The time of a subscription we hold: that of the answer, or else an hour. -/
inductive HeldFor (rs : Headers) : Nat → Prop
  | answer {n} : ExpiresOf rs n → HeldFor rs n
  | default : Absent rs "Expires" → HeldFor rs 3600

/-- What a new subscription records, apart from its time. -/
structure Records (rq rs : Headers) (l r : SipUri) (s : Sub) : Prop where
  named : Named rq rs s.id
  contact : ContactOf rs s.contact
  cseq : CSeqOf rq s.localCSeq
  range : 1 ≤ s.localCSeq ∧ s.localCSeq < 2 ^ 31
  state : s.state = .active
  uris : s.localUri = l ∧ s.remoteUri = r
  fresh : s.remoteCSeq = 0

/-- The URI in a From or To value: the text in the first angle brackets, or else everything before the first semicolon. -/
inductive UriIn (v : Str) (u : SipUri) : Prop
  | bracketed {a x b t} : v = a ++ '<' :: x ++ '>' :: b → '<' ∉ a → '>' ∉ x → Strips isWs x t → SipUri.parse t = some u → UriIn v u
  | bare {p ps t} : '<' ∉ v → Pieces ';' v (p :: ps) → Strips isWs p t → SipUri.parse t = some u → UriIn v u

/-- The seconds granted for a SUBSCRIBE: what the application says, or else what the request asks for (a 32-bit number), or
else an hour. -/
inductive Granted (rq : Headers) : Option Nat → Nat → Prop
  | given {n} : Granted rq (some n) n
  | asked {v n} : First rq "Expires" v → Decimal v n → n < 2 ^ 32 → Granted rq none n
  | unreadable {v} : First rq "Expires" v → (∀ n, Decimal v n → 2 ^ 32 ≤ n) → Granted rq none 3600
  | absent : Absent rq "Expires" → Granted rq none 3600

/-! ## NOTIFY requests -/

/-- The request is a NOTIFY of the subscription `id`, from its notifier to its subscriber. -/
structure Notifies (r : Request) (id : SubId) : Prop where
  method : r.method = .notify
  callId : Selects "Call-ID".toList r.headers.inner [id.callId]
  notifier : ∃ v, Selects "From".toList r.headers.inner [v] ∧ TagOf v id.toTag
  subscriber : ∃ v, Selects "To".toList r.headers.inner [v] ∧ TagOf v id.fromTag
  event : Selects "Event".toList r.headers.inner [id.event]

/-- RFC 6665: the words for the states of a subscription. -/
inductive Word : SState → String → Prop
  | active : Word .active "active"
  | pending : Word .pending "pending"
  | terminated : Word .terminated "terminated"

/-- RFC 3515: what a NOTIFY about the outcome `code` says of the subscription. -/
inductive Progress : Nat → String → Prop
  | under {code} : code < 200 → Progress code "active"
  | done {code} : 200 ≤ code → code < 300 → Progress code "terminated;reason=noresource"
  | failed {code} : 300 ≤ code → Progress code "terminated;reason=rejected"

/-- The text is a status line with code and reason phrase. -/
def StatusText (code : Nat) (reason text : Str) : Prop :=
  ∃ w, Decimal w code ∧ text = "SIP/2.0 ".toList ++ w ++ " ".toList ++ reason ++ ['\r', '\n']

/-- The body of a message with the length its header says. -/
def Body (r : Request) (text : Str) : Prop :=
  r.body = utf8 text ∧ ∃ w, Selects "Content-Length".toList r.headers.inner [w] ∧ Decimal w (utf8 text).length

/-- The piece, without the space around it, is `tag=` in small letters and then `t`. -/
def SmallTagPiece (p t : Str) : Prop := Strips isWs p ("tag=".toList ++ t)

/-- `t` is the text after the first such piece of a From or To value. -/
def SmallTagOf (v t : Str) : Prop :=
  ∃ pre p post, Pieces ';' v (pre ++ p :: post) ∧ SmallTagPiece p t ∧ ∀ q ∈ pre, ∀ x, ¬ SmallTagPiece q x

/-- The event package of a message: the Event value up to the first semicolon, without the space around it. -/
def PackageOf (hs : Headers) (e : Str) : Prop := ∃ v p ps, First hs "Event" v ∧ Pieces ';' v (p :: ps) ∧ Strips isWs p e

/-- A NOTIFY as the daemon reads it: Call-ID, From tag, To tag, event package. -/
structure ReadsAs (hs : Headers) (c f t e : Str) : Prop where
  callId : First hs "Call-ID" c
  «from» : ∃ v, First hs "From" v ∧ SmallTagOf v f
  to : ∃ v, First hs "To" v ∧ SmallTagOf v t
  package : PackageOf hs e

end Siphon.Sub.Spec
