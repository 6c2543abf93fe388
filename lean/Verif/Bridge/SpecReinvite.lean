import Verif.Bridge.Spec
import Verif.Dialog.CreateSpec
import Verif.Sub.ReferSpec
/-! What the properties of re-INVITEs through the back-to-back user agent are about. -/
namespace Siphon.Bridge.Spec
open HdrSpec TextSpec
open Siphon.Dlg.Spec (First Absent TagOf Names TargetOf)
open Siphon.Sub.Spec (Target)

/-- By the response `r`, which arrived, the callee accepted the call with the Call-ID `b`. -/
def Accepted (es : List Ev) (b : Str) (r : Response) : Prop :=
  Ev.response r ∈ es ∧ First r.headers "Call-ID" b ∧ 200 ≤ r.code ∧ r.code < 300

/-- The dialog with the callee of the call `b`: the Call-ID, the bridge's tag and the callee's are those of its answer, the URI is that
of the answer's Contact, and the target too (`TargetOf` reads the Contact in its own way). -/
def WithCallee (es : List Ev) (b c own peer : Str) (uri target : SipUri) : Prop :=
  ∃ r v, Accepted es b r ∧ Names r.headers c own peer ∧ First r.headers "Contact" v ∧ Target v uri ∧ TargetOf r.headers uri target

/-- The dialog with the caller of `rq`, for whom the call `b` was placed: the Call-ID and the caller's tag are those of `rq`, the
bridge's tag is the one the callee gave it, the URI is that of From, the target that of Contact or else the same. -/
def WithCaller (es : List Ev) (rq : Request) (b c own peer : Str) (uri target : SipUri) : Prop :=
  ∃ r t v to, Accepted es b r ∧ CalleeTag r t ∧ First rq.headers "Call-ID" c ∧ First rq.headers "From" v ∧ TagOf v peer ∧ Target v uri ∧
    First rq.headers "To" to ∧ TagOf (to ++ ";tag=".toList ++ t) own ∧ TargetOf rq.headers uri target

/-- `q` belongs to one of the two dialogs of a call placed in the history, and the other dialog has these parts: Call-ID, own tag,
tag of the peer, the peer's URI, its target.  `n` is 2 if the other is the callee, 1 if it is the caller. -/
def OtherSide (es : List Ev) (q : Request) (c own peer : Str) (uri target : SipUri) (n : Nat) : Prop :=
  ∃ rq look f now i c0 own0 peer0 uri0 target0, Ev.invite rq look f now i ∈ es ∧ Names q.headers c0 peer0 own0 ∧
    (WithCaller es rq f.callId c0 own0 peer0 uri0 target0 ∧ WithCallee es f.callId c own peer uri target ∧ n = 2 ∨
     WithCallee es f.callId c0 own0 peer0 uri0 target0 ∧ WithCaller es rq f.callId c own peer uri target ∧ n = 1)

/-- The body that is passed on, and its headers: nothing if the body is no text. -/
def TextBody (body out : Bytes) (l : List (String × Str)) : Prop :=
  (∃ b, body = utf8 b) ∧ out = body ∧ SdpLines body l ∨ (¬ ∃ b, body = utf8 b) ∧ out = [] ∧ l = [("Content-Length", "0".toList)]

/-- After the history `es` an INVITE within a call is passed on as `out`, and accepted. -/
def PassedOn (cfg : Cfg) (es : List Ev) (out : Request) : Prop :=
  ∃ q look f now i t t0 a ok, 200 ≤ ok.code ∧ ok.code < 300 ∧
    (step cfg (run cfg init es).1 (.invite q look f now i)).2 = [.reply t t0, .tcp a out, .reply t ok]

end Siphon.Bridge.Spec
