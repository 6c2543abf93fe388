import Verif.Sub.Refer
import Verif.Sub.Spec
/-!
# What the properties of REFER are about
-/
namespace Siphon.Sub.Spec
open TextSpec HdrSpec Dlg.Spec

/-! ## Addresses -/

/-- The IPv4 addresses with a special purpose the daemon must not call (RFC 6890, RFC 1918, RFC 5771). -/
inductive Special : Nat → Nat → Nat → Nat → Prop
  | unspecified : Special 0 0 0 0
  | loopback {b c d} : Special 127 b c d
  | privateTen {b c d} : Special 10 b c d
  | privateTwelve {b c d} : 16 ≤ b → b < 32 → Special 172 b c d
  | privateSixteen {c d} : Special 192 168 c d
  | linkLocal {c d} : Special 169 254 c d
  | shared {b c d} : 64 ≤ b → b < 128 → Special 100 b c d
  | protocols {d} : Special 192 0 0 d
  | benchmark18 {c d} : Special 198 18 c d
  | benchmark19 {c d} : Special 198 19 c d
  | test1 {d} : Special 192 0 2 d
  | test2 {d} : Special 198 51 100 d
  | test3 {d} : Special 203 0 113 d
  | multicast {a b c d} : 224 ≤ a → a < 240 → Special a b c d
  | broadcast : Special 255 255 255 255

/-- The same for IPv6. -/
inductive Special6 : List Nat → Prop
  | unspecified : Special6 [0, 0, 0, 0, 0, 0, 0, 0]
  | loopback : Special6 [0, 0, 0, 0, 0, 0, 0, 1]
  | multicast {s t} : 0xff00 ≤ s → Special6 (s :: t)
  | linkLocal {s t} : 0xfe80 ≤ s → s < 0xfec0 → Special6 (s :: t)
  | uniqueLocal {s t} : 0xfc00 ≤ s → s < 0xfe00 → Special6 (s :: t)
  | documentation {t} : Special6 (0x2001 :: 0xdb8 :: t)
  | mapped {a b c d} : Special a b c d → b < 256 → d < 256 → Special6 [0, 0, 0, 0, 0, 0xffff, a * 256 + b, c * 256 + d]

/-- The text of an IPv4 address. -/
def Dotted (h : Str) (a b c d : Nat) : Prop :=
  a ≤ 255 ∧ b ≤ 255 ∧ c ≤ 255 ∧ d ≤ 255 ∧ h = showNat a ++ '.' :: (showNat b ++ '.' :: (showNat c ++ '.' :: showNat d))

/-- The URI in a header value as the daemon reads it: the text after the first `<` up to the next `>` or the end, or without
`<` everything before the first semicolon. -/
inductive Target (v : Str) (u : SipUri) : Prop
  | bracketed {a x b} : v = a ++ '<' :: x ++ '>' :: b → '<' ∉ a → '>' ∉ x → SipUri.parse x = some u → Target v u
  | «open» {a x} : v = a ++ '<' :: x → '<' ∉ a → '>' ∉ x → SipUri.parse x = some u → Target v u
  | bare {p ps t} : '<' ∉ v → Pieces ';' v (p :: ps) → Strips isWs p t → SipUri.parse t = some u → Target v u

/-- The port of a URI, 5060 if it has none. -/
def PortOf (u : SipUri) (p : Nat) : Prop := u.port = some p ∨ u.port = none ∧ p = 5060

/-! ## Replaces -/

/-- The text `p` occurs in `s`, in any case. -/
def Mentions (p s : Str) : Prop := ∃ a x b, s = a ++ x ++ b ∧ SameName x p

/-- The byte is a hexadecimal digit with the value `x`. -/
inductive Hex (b : UInt8) (x : Nat) : Prop
  | digit : 48 ≤ b.toNat → b.toNat ≤ 57 → x = b.toNat - 48 → Hex b x
  | small : 97 ≤ b.toNat → b.toNat ≤ 102 → x = b.toNat - 97 + 10 → Hex b x
  | capital : 65 ≤ b.toNat → b.toNat ≤ 70 → x = b.toNat - 65 + 10 → Hex b x

/-- The first two bytes are hexadecimal digits. -/
def TwoHex (bs : Bytes) : Prop := ∃ b c t x y, bs = b :: c :: t ∧ Hex b x ∧ Hex c y

/-- RFC 3986 section 2.1: the bytes with every escape replaced by the byte it stands for; a percent sign that begins no escape is
kept. -/
inductive Unescapes : Bytes → Bytes → Prop
  | nil : Unescapes [] []
  | escape {b c t u x y} : Hex b x → Hex c y → Unescapes t u → Unescapes (37 :: b :: c :: t) (UInt8.ofNat (x * 16 + y) :: u)
  | stray {t u} : ¬ TwoHex t → Unescapes t u → Unescapes (37 :: t) (37 :: u)
  | plain {a t u} : a ≠ 37 → Unescapes t u → Unescapes (a :: t) (a :: u)

/-- `d` is the text `raw` stands for; bytes that are no text become U+FFFD (`C61_text`). -/
def Decodes (raw d : Str) : Prop := ∃ bs, Unescapes (utf8 raw) bs ∧ Dns.lossy bs = d

/-- Among these pairs of name and value, every one before the first named Replaces can be read, and that one stands for `d`, which
has both tags. -/
inductive Carries : List Str → Str → Prop
  | here {n raw ps d} : '=' ∉ n → SameName n "Replaces".toList → Decodes raw d → Mentions "to-tag=".toList d →
      Mentions "from-tag=".toList d → Carries ((n ++ '=' :: raw) :: ps) d
  | later {n x ps d} : '=' ∉ n → ¬ SameName n "Replaces".toList → Carries ps d → Carries ((n ++ '=' :: x) :: ps) d

/-- The Refer-To value asks for a Replaces header `d`: `d` is in the pairs after the first question mark, up to the end or a last
`>`. -/
def ReplacesOf (v d : Str) : Prop :=
  ∃ a q q' ps, v = a ++ '?' :: q ∧ '?' ∉ a ∧ (q = q' ++ ['>'] ∨ q = q' ∧ ∀ x, q ≠ x ++ ['>']) ∧ Pieces '&' q' ps ∧ Carries ps d

/-- A text that can be the value of a header. -/
def HeaderText (d : Str) : Prop := (utf8 d).length ≤ 8192 ∧ '\r' ∉ d ∧ '\n' ∉ d ∧ '\x00' ∉ d

/-- RFC 3891: the Replaces value for a dialog of the transferor, as the transfer target knows it. -/
def Replacing (d : Dlg.DialogId) : Str :=
  d.callId ++ ";to-tag=".toList ++ d.remoteTag ++ ";from-tag=".toList ++ d.localTag

/-! ## The subscription of a REFER -/

/-- A REFER and its 202 are about the subscription `id`. -/
structure ReferNamed (rq rs : Headers) (id : SubId) : Prop where
  callId : First rq "Call-ID" id.callId
  subscriber : ∃ v, First rq "From" v ∧ SmallTagOf v id.fromTag
  notifier : ∃ v, First rs "To" v ∧ SmallTagOf v id.toTag
  event : id.event = "refer".toList

/-- Where the NOTIFYs for a REFER go: the URI of its Contact, or if there is none to be read the URI of its From. -/
inductive GoesTo (rq : Headers) (u : SipUri) : Prop
  | contact {v} : First rq "Contact" v → Target v u → GoesTo rq u
  | «from» {f} : (∀ v w, First rq "Contact" v → ¬ Target v w) → First rq "From" f → Target f u → GoesTo rq u

/-- The number of a REFER, 1 if it has none. -/
def NumberOf (rq : Headers) (n : Nat) : Prop := CSeqOf rq n ∨ n = 1 ∧ ∀ k, ¬ CSeqOf rq k

/-! ## Progress -/

/-- The request is a NOTIFY with the number `n` that tells the outcome `code` with its reason phrase. -/
structure Reports (r : Request) (n code : Nat) (reason : Str) : Prop where
  method : r.method = .notify
  number : CSeqOf r.headers n
  state : ∃ w, Progress code w ∧ Selects "Subscription-State".toList r.headers.inner [w.toList]
  kind : Selects "Content-Type".toList r.headers.inner ["message/sipfrag;version=2.0".toList]
  text : ∃ t, StatusText code reason t ∧ Body r t

/-- The NOTIFYs tell the outcomes one by one, with numbers from `n` on. -/
inductive ReportAll : Nat → List Request → List (Nat × Str) → Prop
  | nil {n} : ReportAll n [] []
  | cons {n r rs code reason cs} : Reports r n code reason → ReportAll (n + 1) rs cs →
      ReportAll n (r :: rs) ((code, reason) :: cs)

/-- A reason phrase that fits into a NOTIFY: at most 128 bytes and no control character. -/
def Tellable (reason : Str) : Prop :=
  (utf8 reason).length ≤ 128 ∧ ∀ c ∈ reason, ¬ (c.toNat < 32 ∨ c.toNat = 127 ∨ (128 ≤ c.toNat ∧ c.toNat < 160))

/-- What the transferred call comes to when its INVITE was answered with a failure before: what happens, and the outcomes told
because of it. -/
inductive Later : List Ev → List (Nat × Str) → Prop
  | nil : Later [] []
  /-- a repeated failure is told again -/
  | again {r p es cs} : 300 ≤ r.code → Later es cs → Later (.response r p :: es) ((r.code, p) :: cs)
  /-- a success after a failure is told too -/
  | success {r p es} : 200 ≤ r.code → r.code < 300 → Later (.response r p :: es) [(r.code, p)]
  | provisional {r p es cs} : r.code < 200 → Later es cs → Later (.response r p :: es) cs
  | over {es} : Later (.timer .D :: es) []
  | timer {t es cs} : t ≠ .D → Later es cs → Later (.timer t :: es) cs
  | lost {es} : Later (.transportError :: es) [(503, "Transport Error".toList), (503, "transport error".toList)]
  | evicted {es} : Later (.evicted :: es) [(503, "resource limit exceeded".toList)]

/-- What the transferred call comes to after its INVITE: every provisional response is told, and then the final one, or 503 if
there is none in time.  Nothing is told after a success or after 503. -/
inductive Story : List Ev → List (Nat × Str) → Prop
  | nil : Story [] []
  | provisional {r p es cs} : r.code < 200 → Story es cs → Story (.response r p :: es) ((r.code, p) :: cs)
  | success {r p es} : 200 ≤ r.code → r.code < 300 → Story (.response r p :: es) [(r.code, p)]
  | failure {r p es cs} : 300 ≤ r.code → Later es cs → Story (.response r p :: es) ((r.code, p) :: cs)
  | timeout {es} : Story (.timer .B :: es) [(503, "Timer B expired".toList)]
  | timer {t es cs} : t ≠ .B → Story es cs → Story (.timer t :: es) cs
  | lost {es} : Story (.transportError :: es) [(503, "Transport Error".toList), (503, "transport error".toList)]
  | evicted {es} : Story (.evicted :: es) [(503, "resource limit exceeded".toList)]

/-- An event that is a final response. -/
def IsFinal : Ev → Prop
  | .response r _ => 200 ≤ r.code
  | _ => False

/-- Only the last outcome is final. -/
def EndsOnce (cs : List (Nat × Str)) : Prop := ∀ a c b, cs = a ++ c :: b → 200 ≤ c.1 → b = []

end Siphon.Sub.Spec
