import Verif.Core.Msg
import Verif.Core.MaxForwards
import Verif.Core.Route
/-!
# Stateless proxy helpers

Model of `crates/sip-proxy/src/lib.rs` (non-test part, lines 1-446).  `none` stands for a panic where a
comment says so.  Branch tokens drawn at random are arguments; SHA-256 is an arbitrary function on byte
lists.  `set_request_uri` (330-336) rebuilds the request with the same method, headers and body and panics
only if the body is too large, which is checked when a request is made; it is written `{ r with uri := t }`.
-/
namespace Siphon.Proxy

/-- lib.rs 44 -/
def MAX_VIA_HOPS : Nat := 70

/-- lower-case hexadecimal digit -/
def hexDigit (n : Nat) : Char := if n < 10 then Char.ofNat (48 + n) else Char.ofNat (87 + n)

/-- `hex::encode`. -/
def hexEncode : Bytes → Str
  | [] => []
  | b :: t => hexDigit (b.toNat / 16) :: hexDigit (b.toNat % 16) :: hexEncode t

/-- `Option::unwrap_or("")`. -/
def orEmpty : Option Str → Str
  | some v => v
  | none => []

/-- lib.rs 65-68: the first word of the CSeq header. -/
def cseqWord (hs : Headers) : Str :=
  match hs.get "CSeq".toList with
  | none => []
  | some v =>
    match splitWhitespace v with
    | [] => []
    | w :: _ => w

/-- lib.rs 72-85: the bytes that are hashed. -/
def loopText (to frm callId cseq uri host : Str) : Bytes :=
  utf8 to ++ [0x1f] ++ utf8 frm ++ [0x1f] ++ utf8 callId ++ [0x1f] ++ utf8 cseq ++ [0x1f] ++ utf8 uri ++ [0x1f]
    ++ utf8 host

/-- lib.rs 55-88 `compute_loop_branch`. -/
def loopBranch (sha : Bytes → Bytes) (r : Request) (host : Str) : Str :=
  "z9hG4bK".toList ++ hexEncode ((sha (loopText (orEmpty (r.headers.get "To".toList))
    (orEmpty (r.headers.get "From".toList)) (orEmpty (r.headers.get "Call-ID".toList)) (cseqWord r.headers)
    r.uri host)).take 16)

/-- First element of a split (never empty in Rust). -/
def firstPiece (c : Char) (s : Str) : Str :=
  match splitChar c s with
  | [] => []
  | p :: _ => p

/-- lib.rs 90-93 `extract_via_sent_by`. -/
def viaSentBy (v : Str) : Option Str :=
  match splitWhitespace v with
  | _ :: w :: _ => some (firstPiece ';' w)
  | _ => none

/-- lib.rs 97-100 `sent_by_matches_host`. -/
def sentByMatches (sentBy host : Str) : Bool := eqIgnoreCase (firstPiece ':' sentBy) host

/-- The first piece that, trimmed, starts with the given text: what follows it.  (lib.rs 103-108
`extract_via_branch`, cancel_ack.rs 180-185 `extract_tag`.) -/
def findPrefixed (p : Str) : List Str → Option Str
  | [] => none
  | x :: xs => if p.isPrefixOf (trim x) then some ((trim x).drop p.length) else findPrefixed p xs

/-- lib.rs 103-108 `extract_via_branch`. -/
def viaBranch (v : Str) : Option Str := findPrefixed "branch=".toList (splitChar ';' v)

/-- lib.rs 125: the text of the Via header. -/
def viaValue (host transport branch : Str) : Str :=
  "SIP/2.0/".toList ++ transport ++ [' '] ++ host ++ ";branch=".toList ++ branch ++ ";rport".toList

/-- lib.rs 127-132 and 228-232: put a Via in front of all headers; `none` is the panic (the header is not
valid, or the list would exceed 200). -/
def prependVia (r : Request) (value : Str) : Option Request :=
  match Header.new "Via".toList value with
  | .error _ => none
  | .ok h =>
    match Headers.tryFromIter (h :: r.headers.inner) with
    | .error _ => none
    | .ok hs => some { r with headers := hs }

/-- lib.rs 123-135 `add_via`, for the branch drawn; `none` is a panic. -/
def addVia (r : Request) (host transport branch : Str) : Option Request :=
  prependVia r (viaValue host transport branch)

/-- lib.rs 150-164 `add_record_route`; `none` is a panic. -/
def addRecordRoute (r : Request) (proxyUri : SipUri) : Option Request :=
  let value := if proxyUri.params.any (fun e => eqIgnoreCase e.1 "lr".toList) then '<' :: proxyUri.raw ++ ['>']
    else '<' :: proxyUri.raw ++ ";lr>".toList
  match r.headers.push "Record-Route".toList value with
  | .error _ => none
  | .ok hs => some { r with headers := hs }

/-- lib.rs 178-182 `check_max_forwards`; `none` is `Err(_)`. -/
def checkMaxForwards (r : Request) : Option Request :=
  match decrementMaxForwards r.headers with
  | .error _ => none
  | .ok (_, hs) => some { r with headers := hs }

/-- lib.rs 193-213: without the first header of that name. -/
def dropFirst (n : Str) : List Header → List Header
  | [] => []
  | h :: t => if h.nameEq n then t else h :: dropFirst n t

/-- lib.rs 191-213 `remove_top_via`. -/
def removeTopVia (hs : Headers) : Headers := ⟨dropFirst "Via".toList hs.inner⟩

/-- lib.rs 220-235 `add_via_with_loop_detection`: the request and the branch; `none` is a panic. -/
def addViaLoop (sha : Bytes → Bytes) (r : Request) (host transport : Str) : Option (Request × Str) :=
  let branch := loopBranch sha r host
  (prependVia r (viaValue host transport branch)).map (fun r => (r, branch))

/-- lib.rs 249-252, 295: a Via header, in full or compact form. -/
def isVia (h : Header) : Bool := h.nameEq "Via".toList || h.nameEq "v".toList

/-- lib.rs 246-275 `detect_loop_hashed`: false is `Err(_)`. -/
def detectLoopHashed (sha : Bytes → Bytes) (r : Request) (host : Str) : Bool :=
  !r.headers.inner.any (fun h => isVia h &&
    (match viaSentBy h.value with
     | none => false
     | some sb => sentByMatches sb host &&
       (match viaBranch h.value with
        | none => false
        | some b => b == loopBranch sha r host)))

/-- lib.rs 292-318: the loop over the headers, `n` Vias seen so far. -/
def detectLoopGo (host : Str) : List Header → Nat → Bool
  | [], _ => true
  | h :: t, n =>
    if isVia h then
      if n + 1 > MAX_VIA_HOPS then false
      else
        match splitWhitespace h.value with
        | _ :: w :: _ =>
          if eqIgnoreCase (firstPiece ':' (firstPiece ';' w)) host then false else detectLoopGo host t (n + 1)
        | _ => detectLoopGo host t (n + 1)
    else detectLoopGo host t n

/-- lib.rs 291-320 `detect_loop`: false is `Err(_)`. -/
def detectLoop (r : Request) (host : Str) : Bool := detectLoopGo host r.headers.inner 0

/-- lib.rs 417-420: position of the first header of that name. -/
def firstIdx (n : Str) : List Header → Option Nat
  | [] => none
  | h :: t => if h.nameEq n then some 0 else (firstIdx n t).map (· + 1)

/-- lib.rs 369-374: position of the last header of that name. -/
def lastIdx (n : Str) : List Header → Option Nat
  | [] => none
  | h :: t =>
    match lastIdx n t with
    | some i => some (i + 1)
    | none => if h.nameEq n then some 0 else none

/-- lib.rs 360-396 `recover_strict_routed_request_uri`; `isSelf` is the caller's test of the Request-URI. -/
def recoverStrict (r : Request) (isSelf : Str → Bool) : Request × Bool :=
  if !isSelf r.uri then (r, false)
  else
    match lastIdx "Route".toList r.headers.inner with
    | none => (r, false)
    | some i =>
      match r.headers.inner[i]? with
      | none => (r, false)
      | some h =>
        match parseRoute (trim h.value) with
        | none => (r, false)
        | some route => ({ r with uri := route.uri.asStr, headers := ⟨r.headers.inner.eraseIdx i⟩ }, true)

/-- lib.rs 416-445 `apply_strict_routing_swap`. -/
def applyStrictSwap (r : Request) : Request × Bool :=
  match firstIdx "Route".toList r.headers.inner with
  | none => (r, false)
  | some i =>
    match r.headers.inner[i]? with
    | none => (r, false)
    | some h =>
      match parseRoute (trim h.value) with
      | none => (r, false)
      | some route =>
        if route.hasLr then (r, false)
        else
          let hs : Headers := ⟨r.headers.inner.eraseIdx i⟩
          let hs := match hs.push "Route".toList ('<' :: r.uri ++ ['>']) with
            | .ok hs => hs
            | .error _ => hs
          ({ r with uri := route.uri.asStr, headers := hs }, true)

end Siphon.Proxy
