import Verif.Core.Msg
import Verif.Base.Percent
import Verif.Base.Num
/-!
# Message fragments (sip-core, sipfrag.rs, RFC 3420)

An error is `none`: its kind and message are not modelled.  The version is always 2.0.
-/
namespace Siphon.Frag

/-- sipfrag.rs 104-109 `StartLine`. -/
inductive Start
  | request (m : Method) (uri : Str)
  | response (code : Nat) (reason : Str)
  deriving DecidableEq, Repr

/-- sipfrag.rs 93-100 `SipFrag`. -/
structure Frag where
  start : Option Start
  headers : Headers
  body : Bytes
  deriving DecidableEq, Repr

/-- sipfrag.rs 14. -/
def MAX_SIPFRAG_BODY_SIZE : Nat := 65536

/-- sipfrag.rs 370-398 `validate_body_headers`; `usize` has 64 bits. -/
def bodyHeaders (hs : Headers) (len : Nat) : Bool :=
  if len = 0 then true
  else if (hs.get "Content-Type".toList).isNone then false
  else
    match hs.get "Content-Length".toList with
    | none => false
    | some v => parseDec (2 ^ 64 - 1) (trim v) == some len

/-- sipfrag.rs 113-119 `empty`. -/
def Frag.empty : Frag := ⟨none, Headers.empty, []⟩

/-- sipfrag.rs 132-140 `status_only`, with msg.rs 172-186 `StatusLine::new`. -/
def Frag.statusOnly (code : Nat) (reason : Str) : Option Frag :=
  if !(100 ≤ code && code ≤ 699) then none
  else
    match validateReason reason with
    | .error _ => none
    | .ok () => some ⟨some (.response code reason), Headers.empty, []⟩

/-- sipfrag.rs 146-161 `from_response`. -/
def Frag.fromResponse (r : Response) : Option Frag :=
  if r.body.length > MAX_SIPFRAG_BODY_SIZE then none
  else if !bodyHeaders r.headers r.body.length then none
  else some ⟨some (.response r.code r.reason), r.headers, r.body⟩

/-- sipfrag.rs 164-179 `response` and `request`: a fragment of a start line alone. -/
def Frag.ofStart (s : Start) : Frag := ⟨some s, Headers.empty, []⟩

/-- sipfrag.rs 182-188 `headers_only`. -/
def Frag.headersOnly (hs : Headers) : Frag := ⟨none, hs, []⟩

/-- sipfrag.rs 211-236 `with_header` and `add_header`. -/
def Frag.addHeader (f : Frag) (n v : Str) : Option Frag :=
  match f.headers.push n v with
  | .error _ => none
  | .ok hs => some { f with headers := hs }

/-- sipfrag.rs 250-288 `with_body` and `set_body`. -/
def Frag.setBody (f : Frag) (b : Bytes) : Option Frag :=
  if b.length > MAX_SIPFRAG_BODY_SIZE then none
  else if !bodyHeaders f.headers b.length then none
  else some { f with body := b }

/-- sipfrag.rs 301-306 `status_code`. -/
def Frag.statusCode (f : Frag) : Option Nat :=
  match f.start with
  | some (.response c _) => some c
  | _ => none

/-- sipfrag.rs 309-322 `method` and `request_uri`. -/
def Frag.target (f : Frag) : Option (Method × Str) :=
  match f.start with
  | some (.request m u) => some (m, u)
  | _ => none

/-- sipfrag.rs 331-352. -/
def startText : Option Start → Str
  | some (.request m u) => m.asStr ++ ' ' :: (u ++ ' ' :: ("SIP/2.0".toList ++ ['\r', '\n']))
  | some (.response c r) => "SIP/2.0".toList ++ ' ' :: (showNat c ++ ' ' :: (r ++ ['\r', '\n']))
  | none => []

/-- sipfrag.rs 355-357. -/
def headerText : List Header → Str
  | [] => []
  | h :: t => h.name ++ ':' :: ' ' :: (h.value ++ '\r' :: '\n' :: headerText t)

/-- sipfrag.rs 325-368 `Display`; `none` is `fmt::Error`, on which `to_string` panics. -/
def Frag.show (f : Frag) : Option Str :=
  if f.body.isEmpty then some (startText f.start ++ headerText f.headers.inner)
  else
    match utf8Decode f.body with
    | none => none
    | some b => some (startText f.start ++ headerText f.headers.inner ++ '\r' :: '\n' :: b)

end Siphon.Frag
