import Verif.Bridge.Model
import Verif.Dialog.Spec
import Verif.Uas.ResponseSpec
/-!
# What the properties of the back-to-back user agent are about

The data types of the model, and no function of it.
-/
namespace Siphon.Bridge.Spec
open HdrSpec TextSpec
open Siphon.Dlg.Spec (First Absent)

/-- The headers of a message, written as names and values. -/
def Lines (hs : Headers) (l : List (String × Str)) : Prop := hs.inner = l.map (fun p => ⟨p.1.toList, p.2⟩)

/-- The value has, between semicolons, a piece `tag=t`; it is the first one that begins with `tag=`. -/
def LowTag (v t : Str) : Prop :=
  ∃ pre p post, Pieces ';' v (pre ++ p :: post) ∧ Strips isWs p ("tag=".toList ++ t) ∧ ∀ y ∈ pre, ∀ z, ¬ Strips isWs y ("tag=".toList ++ z)

/-- There is no such piece. -/
def NoLowTag (v : Str) : Prop := ∃ ps, Pieces ';' v ps ∧ ∀ y ∈ ps, ∀ z, ¬ Strips isWs y ("tag=".toList ++ z)

/-- The tag the callee put in a response. -/
def CalleeTag (r : Response) (t : Str) : Prop := ∃ v, First r.headers "To" v ∧ LowTag v t

/-- The response has no tag. -/
def NoCalleeTag (r : Response) : Prop := Absent r.headers "To" ∨ ∃ v, First r.headers "To" v ∧ NoLowTag v

/-- The first header of each of the names that are there, in the order of the names. -/
inductive Copies (hs : Headers) : List String → List (String × Str) → Prop
  | nil : Copies hs [] []
  | there {n v ns l} : First hs n v → Copies hs ns l → Copies hs (n :: ns) ((n, v) :: l)
  | absent {n ns l} : Absent hs n → Copies hs ns l → Copies hs (n :: ns) l

/-- `r'` is what the caller of the request `rq` gets when the callee answered `r`. -/
structure Relayed (me : Str) (rq : Request) (r r' : Response) : Prop where
  /-- the code and the reason are the callee's, but a challenge of a proxy becomes 502 -/
  status : (r.code ≠ 407 ∧ r'.code = r.code ∧ r'.reason = r.reason ∧ r'.body = r.body) ∨
    (r.code = 407 ∧ r'.code = 502 ∧ r'.reason = "Bad Gateway".toList ∧ r'.body = [])
  headers : ∃ vias cid frm to cseq to' ctype len kept,
    Selects "Via".toList rq.headers.inner vias ∧ First rq.headers "Call-ID" cid ∧ First rq.headers "From" frm ∧
    First rq.headers "To" to ∧ First rq.headers "CSeq" cseq ∧
    ((NoCalleeTag r ∧ to' = to) ∨ ∃ t, CalleeTag r t ∧ to' = to ++ ";tag=".toList ++ t) ∧
    (r.body = [] ∧ ctype = [] ∨ r.body ≠ [] ∧ Copies r.headers ["Content-Type"] ctype) ∧
    DecDigits len r'.body.length ∧ Copies r.headers ["Allow", "Supported", "Server", "User-Agent", "RSeq", "Require"] kept ∧
    Lines r'.headers (vias.map (fun v => ("Via", v)) ++
      [("Call-ID", cid), ("From", frm), ("CSeq", cseq), ("To", to'), ("Contact", '<' :: me ++ ['>'])] ++
      ctype ++ [("Content-Length", len)] ++ kept)

/-- What was answered to a server transaction, in order. -/
inductive Answers (t : Nat) : List Out → List Response → Prop
  | nil : Answers t [] []
  | mine {r os rs} : Answers t os rs → Answers t (.reply t r :: os) (r :: rs)
  | other {o os rs} : (∀ r, o ≠ .reply t r) → Answers t os rs → Answers t (o :: os) rs

/-- Provisional responses, then at most one more. -/
def OneFinal (rs : List Response) : Prop := ∃ pre last, rs = pre ++ last ∧ (∀ r ∈ pre, r.code < 200) ∧ last.length ≤ 1

/-- The responses among the events that name the call `cid`, in order. -/
inductive Arrived (cid : Str) : List Ev → List Response → Prop
  | nil : Arrived cid [] []
  | mine {r es rs} : First r.headers "Call-ID" cid → Arrived cid es rs → Arrived cid (.response r :: es) (r :: rs)
  | other {e es rs} : (∀ r, e = .response r → ¬ First r.headers "Call-ID" cid) → Arrived cid es rs → Arrived cid (e :: es) rs

/-- `upto` is the part of `rs` up to its first final response, which is included. -/
inductive UpToFinal : List Response → List Response → Prop
  | nil : UpToFinal [] []
  | final {r rs} : 200 ≤ r.code → UpToFinal (r :: rs) [r]
  | more {r rs us} : r.code < 200 → UpToFinal rs us → UpToFinal (r :: rs) (r :: us)

/-- Two lists related item by item. -/
inductive Each {α β : Type} (R : α → β → Prop) : List α → List β → Prop
  | nil : Each R [] []
  | cons {a b as bs} : R a b → Each R as bs → Each R (a :: as) (b :: bs)

/-- A text fit for a header value. -/
def Fits (v : Str) : Prop := OneLine v ∧ utf8Len v ≤ 8192

/-- All characters are ASCII. -/
def Ascii (v : Str) : Prop := ∀ c ∈ v, c.toNat < 128

/-- A request that the bridge can answer: the four headers are there, the From and To are ASCII, there are not too many headers,
and the stored values are fit to be stored. -/
structure Answerable (rq : Request) : Prop where
  few : rq.headers.inner.length ≤ 180
  clean : ∀ h ∈ rq.headers.inner, Fits h.value
  callId : ∃ v, First rq.headers "Call-ID" v
  from_ : ∃ v, First rq.headers "From" v ∧ Ascii v
  to : ∃ v, First rq.headers "To" v ∧ Ascii v
  cseq : ∃ v, First rq.headers "CSeq" v

/-- A response the bridge can pass on to the caller of `rq`: the values are fit to be stored, also the To with the tag, and the From
and To are ASCII. -/
structure Passable (rq : Request) (r : Response) : Prop where
  clean : ∀ h ∈ r.headers.inner, Fits h.value
  code : 100 ≤ r.code
  size : r.body.length ≤ 10485760
  to : ∀ v, First rq.headers "To" v → ∀ t, CalleeTag r t → Fits (v ++ ";tag=".toList ++ t)
  ascii : ∀ v, First r.headers "From" v ∨ First r.headers "To" v → Ascii v

/-- The event leaves alone the call of the request `rq` that came at `now` with the Call-ID `a` and has the Call-ID `b` towards the
callee: it is no BYE or CANCEL for it, no clean-up that finds it old, no INVITE that gets the same Call-ID.  A response for the call
can be passed on. -/
def Leaves (rq : Request) (a b : Str) (now : Nat) : Ev → Prop
  | .invite _ _ f _ _ => f.callId ≠ b
  | .bye q _ _ => ∃ v, First q.headers "Call-ID" v ∧ v ≠ a ∧ v ≠ b
  | .cancel q _ _ => ∃ v, First q.headers "Call-ID" v ∧ v ≠ a
  | .response r => First r.headers "Call-ID" b → Passable rq r
  | .sweep n => n < now + 300
  | _ => True

/-- The event is no INVITE with one of the Call-IDs `a` and `b`. -/
def Others (a b : Str) : Ev → Prop
  | .invite q _ _ _ _ => ∃ v, First q.headers "Call-ID" v ∧ v ≠ a ∧ v ≠ b
  | _ => True

/-- A history in which a call is placed. -/
structure Story where
  cfg : Cfg
  pre : List Ev
  rq : Request
  look : Lookup
  f : Fresh
  now : Nat
  i : Nat
  post : List Ev

/-- All that happened. -/
def Story.events (x : Story) : List Ev := x.pre ++ .invite x.rq x.look x.f x.now x.i :: x.post

/-- The INVITE is passed on as `inv` to `addr`, the caller gets `r0` (which is 100), and nothing but the callee ends the call; no
other call has its Call-IDs. -/
structure Story.Calls (x : Story) (t : Nat) (r0 : Response) (addr : Sub.Addr × Nat) (inv : Request) (a : Str) : Prop where
  me : Fits ('<' :: x.cfg.localUri ++ ">".toList)
  ok : Answerable x.rq
  id : First x.rq.headers "Call-ID" a
  differ : a ≠ x.f.callId
  call : (step x.cfg (run x.cfg init x.pre).1 (.invite x.rq x.look x.f x.now x.i)).2 = [.reply t r0, .tcp addr inv]
  leaves : ∀ e ∈ x.pre ++ x.post, Leaves x.rq a x.f.callId x.now e
  others : ∀ e ∈ x.pre ++ x.post, Others a x.f.callId e

/-- The final response the caller was given is made from `r` of the callee. -/
def Story.Answered (x : Story) (t : Nat) (r : Response) : Prop :=
  ∃ arr done r0 rs, Arrived x.f.callId x.post arr ∧ UpToFinal arr (done ++ [r]) ∧ 200 ≤ r.code ∧
    Answers t (run x.cfg init x.events).2 (r0 :: rs) ∧ rs.length = done.length + 1

/-- The callee has sent no final response, and all that it sent was passed on. -/
def Story.Ringing (x : Story) (t : Nat) : Prop :=
  ∃ arr r0 rs, Arrived x.f.callId x.post arr ∧ (∀ r ∈ arr, r.code < 200) ∧
    Answers t (run x.cfg init x.events).2 (r0 :: rs) ∧ rs.length = arr.length

/-- The first of the keys under which something is stored has `c` first. -/
def FirstHit (look : Lookup) (keys : List Str) (c : Str) : Prop :=
  ∃ pre k post more, keys = pre ++ k :: post ∧ (∀ y ∈ pre, look y = []) ∧ look k = c :: more

/-- The headers that go with a body, which is called SDP. -/
def SdpLines (body : Bytes) (l : List (String × Str)) : Prop :=
  body = [] ∧ l = [("Content-Length", "0".toList)] ∨
    body ≠ [] ∧ l = [("Content-Type", "application/sdp".toList), ("Content-Length", showNat body.length)]

/-- The headers that go with a body that is passed on. -/
def BodyLines (q : Request) (l : List (String × Str)) : Prop :=
  q.body = [] ∧ l = [("Content-Length", "0".toList)] ∨
    q.body ≠ [] ∧ ∃ ct, Copies q.headers ["Content-Type"] ct ∧ l = ct ++ [("Content-Length", showNat q.body.length)]

/-- A stored request that can be answered with a tag. -/
structure Repliable (q : Request) (tg : Str) : Prop where
  stored : HInv q.headers
  few : q.headers.inner.length ≤ 180
  line : OneLine tg
  to : ∀ v, First q.headers "To" v → utf8Len v + 5 + utf8Len tg ≤ 8192

/-- `r` is an answer with this code to the request `q`. -/
structure Replies (q : Request) (code : Nat) (r : Response) : Prop where
  code : r.code = code
  belongs : Uas.Spec.Belongs q.headers r.headers
  cseq : Uas.Spec.Copied q.headers r.headers "CSeq"

/-- Without the semicolons at the end. -/
def NoSemis (v w : Str) : Prop := ∃ n, v = w ++ List.replicate n ';' ∧ ∀ x, w ≠ x ++ [';']

/-- Without any `sip:` at the beginning. -/
inductive NoScheme : Str → Str → Prop
  | more {v w} : NoScheme v w → NoScheme ("sip:".toList ++ v) w
  | done {w} : (∀ x, w ≠ "sip:".toList ++ x) → NoScheme w w

/-- The event concerns no call with the Call-ID `v`: it is no INVITE that has it, no INVITE that is given it towards the callee. -/
def NotOf (v : Str) : Ev → Prop
  | .invite q _ f _ _ => (∃ c, First q.headers "Call-ID" c ∧ c ≠ v) ∧ f.callId ≠ v
  | _ => True

end Siphon.Bridge.Spec
