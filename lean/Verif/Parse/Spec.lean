import Verif.Core.Msg
import Verif.Core.Uri
import Verif.Core.HeadersSpec
import Verif.Base.TextSpec
/-!
# What a message text says

Start lines, header lines and bodies described without the functions that read or write them (the one exception is
`Uri.parse`, whose own properties are C69 and C70).
-/
namespace Siphon.Parse.Spec

open Siphon.HdrSpec Siphon.TextSpec

/-! ## Lines -/

/-- The lines of a text, with CR LF between them. -/
def joinLines : List Str → Str
  | [] => []
  | [l] => l
  | l :: ls => l ++ ['\r', '\n'] ++ joinLines ls

/-- `ls` are the lines of `s`. -/
def Lines (s : Str) (ls : List Str) : Prop :=
  ls ≠ [] ∧ s = joinLines ls ∧ ∀ l ∈ ls, ∀ a b, l ≠ a ++ ['\r', '\n'] ++ b

/-- CR LF CR LF. -/
def blank : Bytes := [13, 10, 13, 10]

/-- The datagram is the text `head`, then the first blank line, then `rest`; or it is a text without blank line. -/
def HeadBody (d : Bytes) (head : Str) (rest : Bytes) : Prop :=
  (d = utf8 head ++ blank ++ rest ∧ ∀ a c, d = a ++ blank ++ c → (utf8 head).length ≤ a.length) ∨
  (d = utf8 head ∧ rest = [] ∧ ∀ a c, d ≠ a ++ blank ++ c)

/-! ## Start lines -/

/-- At least one space or tab. -/
def Gap (s : Str) : Prop := s ≠ [] ∧ ∀ c ∈ s, c = ' ' ∨ c = '\t'

/-- The methods with a name of their own. -/
def known : List (String × Method) :=
  [("INVITE", .invite), ("ACK", .ack), ("BYE", .bye), ("CANCEL", .cancel), ("REGISTER", .register),
   ("OPTIONS", .options), ("INFO", .info), ("UPDATE", .update), ("MESSAGE", .message), ("PRACK", .prack),
   ("REFER", .refer), ("SUBSCRIBE", .subscribe), ("NOTIFY", .notify), ("PUBLISH", .publish)]

/-- `t` names the method `m`; letter case does not matter, and other tokens are kept in capitals. -/
def Names (t : Str) (m : Method) : Prop :=
  (∃ p ∈ known, SameName t p.1.toList ∧ m = p.2) ∨
  ((∀ p ∈ known, ¬ SameName t p.1.toList) ∧ Token t ∧ utf8Len t ≤ 32 ∧ m = .unknown (upper t))

/-- Request line: method, URI and version, between gaps. -/
def RequestLine (line : Str) (m : Method) (uri : Str) : Prop :=
  ∃ t g g' v, Strips isWs line (t ++ g ++ uri ++ g' ++ v) ∧ Names t m ∧ Gap g ∧
    uri ≠ [] ∧ (∀ c ∈ uri, isWs c = false) ∧ (∃ u, Uri.parse uri = some u) ∧ Gap g' ∧ SameName v "SIP/2.0".toList

/-- Status line: version, code and reason, between gaps. -/
def StatusLine (line : Str) (code : Nat) (reason : Str) : Prop :=
  ∃ v g d g' r, Strips isWs line (v ++ g ++ d ++ g' ++ r) ∧ SameName v "SIP/2.0".toList ∧ Gap g ∧ DecDigits d code ∧
    100 ≤ code ∧ code ≤ 699 ∧ Gap g' ∧ Strips isWs r reason ∧ utf8Len reason ≤ 256 ∧
    ∀ c ∈ reason, 32 ≤ c.toNat ∧ c.toNat ≠ 127

/-! ## Header lines -/

/-- The compact header names (RFC 3261, 7.3.3, and the extensions). -/
def compact : List (Char × String) :=
  [('i', "Call-ID"), ('f', "From"), ('t', "To"), ('m', "Contact"), ('l', "Content-Length"), ('s', "Subject"),
   ('k', "Supported"), ('o', "Event"), ('e', "Content-Encoding"), ('c', "Content-Type"), ('v', "Via"),
   ('r', "Refer-To"), ('b', "Referred-By"), ('d', "Request-Disposition"), ('x', "Session-Expires"),
   ('a', "Accept-Contact"), ('u', "Allow-Events")]

/-- The name `full` is meant by `n`. -/
def FullName (n full : Str) : Prop :=
  (∃ p ∈ compact, SameName n [p.1] ∧ full = p.2.toList) ∨ ((∀ p ∈ compact, ¬ SameName n [p.1]) ∧ full = n)

/-- A header the collection accepts. -/
def Storable (h : Header) : Prop :=
  Token h.name ∧ utf8Len h.name ≤ 128 ∧ OneLine h.value ∧ utf8Len h.value ≤ 8192

/-- The line says the header `h`. -/
def Field (line : Str) (h : Header) : Prop :=
  ∃ n v n', line = n ++ ':' :: v ∧ ':' ∉ n ∧ line.head? ≠ some ' ' ∧ line.head? ≠ some '\t' ∧
    Strips isWs n n' ∧ FullName n' h.name ∧ Strips isWs v h.value ∧ Storable h

/-- The lines say the headers, in order; empty lines say nothing. -/
inductive Fields : List Str → List Header → Prop
  | nil : Fields [] []
  | skip {ls hs} : Fields ls hs → Fields ([] :: ls) hs
  | cons {l h ls hs} : Field l h → Fields ls hs → Fields (l :: ls) (h :: hs)

/-- `v` is the first value of the header. -/
def First (hs : List Header) (n : String) (v : Str) : Prop := ∃ more, Selects n.toList hs (v :: more)

/-! ## Checks -/

/-- Call-ID, CSeq, From, To and Max-Forwards occur at most once. -/
def Single (hs : List Header) : Prop :=
  ∀ n ∈ ["Call-ID", "CSeq", "From", "To", "Max-Forwards"], ∀ vs, Selects n.toList hs vs → vs.length ≤ 1

/-- `b` is the value of the first `branch` parameter. -/
def BranchOf (via b : Str) : Prop :=
  ∃ before p after, Pieces ';' via (before ++ p :: after) ∧ Strips isWs p ("branch=".toList ++ b) ∧
    ∀ q ∈ before, ∀ t, ¬ Strips isWs q ("branch=".toList ++ t)

/-- The magic cookie and at least one more character; at most 256 bytes; token characters. -/
def GoodBranch (b : Str) : Prop :=
  (∃ t, t ≠ [] ∧ b = "z9hG4bK".toList ++ t) ∧ utf8Len b ≤ 256 ∧
    ∀ c ∈ b, (65 ≤ c.toNat ∧ c.toNat ≤ 90) ∨ (97 ≤ c.toNat ∧ c.toNat ≤ 122) ∨ (48 ≤ c.toNat ∧ c.toNat ≤ 57) ∨
      c ∈ "-.!%*_+`'~".toList

/-- If the topmost Via has a branch, it is a good one. -/
def Branches (hs : List Header) : Prop :=
  ∀ via b t, First hs "Via" via → BranchOf via b → Strips isWs b t → GoodBranch t

/-- If there is a CSeq, it is a number from 1 to 2^31 - 1 and one word, with the property `P`. -/
def CSeqs (hs : List Header) (P : Str → Prop) : Prop :=
  ∀ v, First hs "CSeq" v → ∃ num word n, Words v [num, word] ∧ DecDigits num n ∧ 1 ≤ n ∧ n ≤ 2 ^ 31 - 1 ∧ P word

/-! ## Body -/

/-- The value is a 64 bit number. -/
def LengthText (v : Str) (n : Nat) : Prop := ∃ t, Strips isWs v t ∧ Decimal t n ∧ n < 2 ^ 64

/-- The body, leniently: as many bytes as the readable Content-Length values say, which must all say the same; all
that is there if none is readable. -/
def Body (hs : List Header) (rest body : Bytes) : Prop :=
  ∃ vs, Selects "Content-Length".toList hs vs ∧ (∀ v ∈ vs, ∀ n, LengthText v n → n ≤ 67108864) ∧
    ((∃ n, n ≤ rest.length ∧ (∃ v ∈ vs, LengthText v n) ∧ (∀ v ∈ vs, ∀ m, LengthText v m → m = n) ∧ body = rest.take n) ∨
     ((∀ v ∈ vs, ∀ n, ¬ LengthText v n) ∧ body = rest))

/-- The body, strictly: every Content-Length value gives the number of bytes there are; without one there are none. -/
def StrictBody (hs : List Header) (rest body : Bytes) : Prop :=
  body = rest ∧ ∃ vs, Selects "Content-Length".toList hs vs ∧
    (∀ v ∈ vs, LengthText v rest.length ∧ rest.length ≤ 67108864) ∧ (vs = [] → rest = [])

/-! ## Messages -/

/-- The datagram has this first line, these headers, and `rest` after the blank line. -/
def Splits (d : Bytes) (max : Nat) (first : Str) (hs : List Header) (rest : Bytes) : Prop :=
  d.length ≤ max ∧ ∃ head lines, HeadBody d head rest ∧ Lines head (first :: lines) ∧ Fields lines hs ∧ hs.length ≤ 200

/-- The datagram says the request. -/
def Request (body : List Header → Bytes → Bytes → Prop) (d : Bytes) (max : Nat) (r : Siphon.Request) : Prop :=
  ∃ first rest, Splits d max first r.headers.inner rest ∧ RequestLine first r.method r.uri ∧ Single r.headers.inner ∧
    Branches r.headers.inner ∧ body r.headers.inner rest r.body ∧ r.body.length ≤ 10485760 ∧
    CSeqs r.headers.inner (fun w => SameName r.method.asStr w)

/-- The datagram says the response. -/
def Response (body : List Header → Bytes → Bytes → Prop) (d : Bytes) (r : Siphon.Response) : Prop :=
  ∃ first rest, Splits d 65536 first r.headers.inner rest ∧ StatusLine first r.code r.reason ∧ Single r.headers.inner ∧
    body r.headers.inner rest r.body ∧ CSeqs r.headers.inner (fun _ => True)

end Siphon.Parse.Spec
