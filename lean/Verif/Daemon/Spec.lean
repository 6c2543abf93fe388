import Verif.Daemon.Model
import Verif.Bridge.Spec
import Verif.Sub.Spec
import Verif.Dialog.CreateSpec
import Verif.Core.HeadersProps
/-!
# What the properties of the daemon as a user agent server are about

The data types of the model, and no function of it but the parsers of URIs, which have their own properties.
-/
namespace Siphon.Daemon.Spec
open HdrSpec TextSpec
open Siphon.Dlg.Spec
open Siphon.Uas.Spec
open Siphon.Bridge.Spec (Copies Lines Fits)
open Siphon.Dlg (Dialog DialogId)

/-- A request that was stored as the parser does it, in ASCII, with some room left for a response. -/
structure Fine (rq : Request) : Prop where
  few : rq.headers.inner.length ≤ 180
  stored : HInv rq.headers
  ascii : AsciiHeaders rq.headers
  to : ∀ v, First rq.headers "To" v → utf8Len v ≤ 7900
  cseq : ∀ v, First rq.headers "CSeq" v → utf8Len v ≤ 8000

/-- A tag as the daemon generates it. -/
def GoodTag (t : Str) : Prop := t.length ≤ 128 ∧ ∀ c ∈ t, c.isAlphanum = true

/-- A local URI that fits into a Contact header. -/
def GoodUri (u : SipUri) : Prop := OneLine u.raw ∧ utf8Len u.raw ≤ 8000 ∧ ShortUri u

/-- `r` answers the request with this code: it has the Via, Record-Route, From, Call-ID and CSeq of the request, and its To, to which
`tag` is added if it has no tag; but a 100 has the To as it came. -/
structure Answers (rq : Request) (code : Nat) (tag : Str) (r : Response) : Prop where
  status : r.code = code
  belongs : Belongs rq.headers r.headers
  cseq : Copied rq.headers r.headers "CSeq"
  trying : code = 100 → Copied rq.headers r.headers "To"
  to : code ≠ 100 → ∀ v, First rq.headers "To" v → ∃ v', Selects "To".toList r.headers.inner [v'] ∧ Tagged v tag v'
  noTo : Absent rq.headers "To" → Absent r.headers "To"

/-- `r` answers the request with this code and nothing but the first of each of these headers; no tag is added. -/
structure BareAnswer (rq : Request) (code : Nat) (r : Response) : Prop where
  status : r.code = code
  body : r.body = []
  headers : ∃ l, Copies rq.headers ["Via", "From", "To", "Call-ID", "CSeq"] l ∧ Lines r.headers l

/-- The request may be forwarded once more: its Max-Forwards is not 0. -/
def Hops (hs : Headers) : Prop := ∀ v, First hs "Max-Forwards" v → ¬ Decimal v 0

/-- The body is a session description that the configuration cannot answer. -/
def BadOffer (i : Info) (b : Bytes) : Prop := b ≠ [] ∧ ∃ o, utf8 o = b ∧ i.answer o = .done none

/-- The body is a session description, answered by `a`. -/
def GoodOffer (i : Info) (b : Bytes) (a : Str) : Prop := b ≠ [] ∧ ∃ o, utf8 o = b ∧ i.answer o = .done (some a)

/-- The body is not UTF-8. -/
def NoText (b : Bytes) : Prop := ∀ o, utf8 o ≠ b

/-- What a caller gets as session description: the answer to the offer, or an offer if there was none, or nothing if the body cannot
be read or (all of a sudden) not be answered. -/
inductive Described (i : Info) (b : Bytes) : Option Str → Prop
  | answer {a} : GoodOffer i b a → Described i b (some a)
  | offer {o} : b = [] → i.offer = some o → Described i b (some o)
  | unread : NoText b → Described i b none
  | refused : BadOffer i b → Described i b none

/-- An INVITE for a new call that can be accepted: it is complete (RFC 3261 8.1.1), the caller's URI and Contact and the Record-Route
make a dialog. -/
structure Invites (rq : Request) (cid ft : Str) (n : Nat) (u : SipUri) : Prop where
  method : rq.method = .invite
  via : ∃ v, First rq.headers "Via" v
  callId : First rq.headers "Call-ID" cid
  caller : ∃ v, First rq.headers "From" v ∧ TagOf v ft ∧ Sub.Spec.UriIn v u
  to : ∃ v, First rq.headers "To" v
  cseq : CSeqOf rq.headers n ∧ 1 ≤ n ∧ n ≤ 2 ^ 31 - 1
  short : ShortUri u ∧ ∃ t, TargetOf rq.headers u t ∧ ShortUri t
  routes : ∃ us, Routes rq.headers us

/-- The identifier of the dialog that a response to the request with this tag opens. -/
def Opens (rq : Request) (tag : Str) (i : DialogId) : Prop :=
  First rq.headers "Call-ID" i.callId ∧ (∃ v, First rq.headers "From" v ∧ TagOf v i.remoteTag) ∧
    ∃ v v', First rq.headers "To" v ∧ Tagged v tag v' ∧ TagOf v' i.localTag

/-- The tag by which pending INVITEs are told apart: what follows the first `;tag=`, up to the next semicolon. -/
def FirstTag (v t : Str) : Prop :=
  ∃ a rest ps, v = a ++ ";tag=".toList ++ rest ∧ (∀ x y, v = x ++ ";tag=".toList ++ y → a.length ≤ x.length) ∧ Pieces ';' rest (t :: ps)

/-- Call-ID, CSeq number (as it is written) and From tag of a request. -/
def Call (hs : Headers) (cid num ft : Str) : Prop :=
  First hs "Call-ID" cid ∧ (∃ v ws, First hs "CSeq" v ∧ Words v (num :: ws)) ∧ ∃ v, First hs "From" v ∧ FirstTag v ft

/-- The event is no INVITE or CANCEL that would be taken for one of this call.  If no CSeq number and no tag has a colon in it, this says
that the Call-ID, the CSeq number or the From tag is another one. -/
def Elsewhere (cid num ft : Str) : Ev → Prop
  | .request _ q _ => (q.method = .invite ∨ q.method = .cancel) → ∀ a b d, Call q.headers a b d →
      a ++ ':' :: b ++ ':' :: d ≠ cid ++ ':' :: num ++ ':' :: ft
  | _ => True

/-- The request reaches its handler: calls are enabled, it may still be forwarded, and the authenticator lets it pass. -/
structure Admitted (c : Cfg) (rq : Request) (i : Info) : Prop where
  calls : c.calls = true
  hops : Hops rq.headers
  gate : i.gate = .pass

/-- The number of the request is in order: it is allowed, and if there was one before it is greater, but not by more than 1000. -/
def InOrder (hs : Headers) (last n : Nat) : Prop := CSeqOf hs n ∧ 1 ≤ n ∧ n ≤ 2 ^ 31 - 1 ∧ (0 < last → last < n ∧ n ≤ last + 1000)

/-- The session description in a request within a dialog is not acceptable, or none can be made in return. -/
def Refused (rq : Request) (i : Info) : Prop := BadOffer i rq.body ∨ (rq.method = .invite ∧ rq.body = [] ∧ i.offer = none)

/-- What a request within a dialog gets as session description. -/
inductive Redescribed (rq : Request) (i : Info) : Option Str → Prop
  | answer {a} : GoodOffer i rq.body a → Redescribed rq i (some a)
  | unread : NoText rq.body → Redescribed rq i none
  | offer {o} : rq.method = .invite → rq.body = [] → i.offer = some o → Redescribed rq i (some o)
  | nothing : rq.method = .update → rq.body = [] → Redescribed rq i none

end Siphon.Daemon.Spec
