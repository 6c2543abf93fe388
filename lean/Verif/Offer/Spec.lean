import Verif.Offer.Model
import Verif.Base.TextSpec
import Verif.Core.HeadersSpec
import Mathlib.Data.List.Forall2
/-!
# Specification: answers, hold and resume, and preconditions (C123, C124, C125)

A direction is a pair: does the side that writes it send, does it receive.
-/
namespace Siphon.Offer.Spec
open Siphon.TextSpec

/-- `x` belongs to the first of the items to which anything belongs. -/
def First {α β : Type} (P : α → β → Prop) (items : List α) (x : β) : Prop :=
  ∃ pre a post, items = pre ++ a :: post ∧ P a x ∧ ∀ b ∈ pre, ∀ y, ¬ P b y

/-- A text without control characters other than tabs, of limited size. -/
def Field (s : Str) (max : Nat) : Prop := utf8Len s ≤ max ∧ ∀ c ∈ s, isControl c = true → c = '\t'

/-! ## Codecs -/

/-- `v` is the value of an `rtpmap` attribute that says `r`: `<payload> <name>/<clock>[/<parameters>[/...]]`. -/
def RtpText (v : Str) (r : RtpMap) : Prop :=
  ∃ p enc clk rest, v = p ++ ' ' :: enc ∧ ' ' ∉ p ∧ Decimal p r.payload ∧ r.payload ≤ 127 ∧
    Pieces '/' enc (r.name :: clk :: rest) ∧ Field r.name 64 ∧ Decimal clk r.clock ∧ 1 ≤ r.clock ∧ r.clock ≤ 1000000000 ∧
    r.params = rest.head? ∧ ∀ x, r.params = some x → Field x 16

/-- The attribute says `r`. -/
def Says (a : Attr) (r : RtpMap) : Prop := a.name = "rtpmap".toList ∧ ∃ v, a.value = some v ∧ RtpText v r

/-- No attribute says anything about the payload type. -/
def Unmapped (as : List Attr) (n : Nat) : Prop := ∀ a ∈ as, ∀ r, Says a r → r.payload ≠ n

/-- The payload types of RFC 3551 that the engine knows. -/
def Static (p : Str) (r : RtpMap) : Prop :=
  ∃ e ∈ [("0", 0, "PCMU"), ("3", 3, "GSM"), ("4", 4, "G723"), ("8", 8, "PCMA"), ("9", 9, "G722"), ("18", 18, "G729")],
    p = e.1.toList ∧ r = ⟨e.2.1, e.2.2.toList, 8000, none⟩

/-- The format `p` means the encoding `r` in the stream: by the last attribute about it, or because it is a static one. -/
inductive Means (m : Media) : Str → RtpMap → Prop
  | explicit {pre a post r} : m.attributes = pre ++ a :: post → Says a r → Unmapped post r.payload →
      Means m (showNat r.payload) r
  | static {p r} : p ∈ m.fmt → Static p r → Unmapped m.attributes r.payload → Means m p r

/-- The number of channels of a codec and the parameters of a map agree. -/
def Channels : Option Nat → Option Str → Prop
  | some n, some p => Decimal p n ∧ n ≤ 65535
  | some n, none => n = 1
  | none, some _ => False
  | none, none => True

/-- One of the codecs is the encoding. -/
def Supports (cs : List Codec) (r : RtpMap) : Prop :=
  ∃ c ∈ cs, HdrSpec.SameName c.name r.name ∧ c.clock = r.clock ∧ Channels c.channels r.params

/-- The format `p` of the stream means `r`, and the answerer has `r` for this kind of stream. -/
def Common (o : Options) (m : Media) (p : Str) (r : RtpMap) : Prop :=
  Means m p r ∧ ((m.media = "audio".toList ∧ Supports o.audio r) ∨ (m.media = "video".toList ∧ Supports o.video r))

/-- The value of an `fmtp` attribute for the format. -/
def FmtpText (p v : Str) : Prop := ∃ ps, v = p ++ ' ' :: ps ∧ ' ' ∉ p ∧ Field p 16 ∧ Field ps 1024

/-- The `fmtp` value that counts for the format: the first one. -/
def FmtpOf (as : List Attr) (p v : Str) : Prop :=
  First (fun a v => a.name = "fmtp".toList ∧ a.value = some v ∧ FmtpText p v) as v

/-! ## Directions -/

/-- The words for directions: does the writer send, does it receive. -/
def Word (s : Str) (d : Bool × Bool) : Prop :=
  (s, d) ∈ [("sendrecv".toList, (true, true)), ("sendonly".toList, (true, false)), ("recvonly".toList, (false, true)),
    ("inactive".toList, (false, false))]

/-- The directions that the application can ask for. -/
def Pair : Dir → Bool × Bool
  | .sendrecv => (true, true)
  | .sendonly => (true, false)
  | .recvonly => (false, true)
  | .inactive => (false, false)

/-- The attribute is a direction. -/
def IsDir (a : Attr) (d : Bool × Bool) : Prop := a.value = none ∧ Word a.name d

/-- The direction that the attributes of a stream declare. -/
def Declares (as : List Attr) (d : Bool × Bool) : Prop :=
  First IsDir as d ∨ ((∀ a ∈ as, ∀ d, ¬ IsDir a d) ∧ d = (true, true))

/-! ## Preconditions -/

/-- The characters have the same lower case; `d` is in lower case. -/
def Folds (c d : Char) : Prop := c = d ∨ (65 ≤ c.toNat ∧ c.toNat ≤ 90 ∧ d.toNat = c.toNat + 32) ∨ (c.toNat = 0x212A ∧ d = 'k')

/-- The text is the word in any case. -/
def Reads (s : Str) (w : String) : Prop := List.Forall₂ Folds s w.toList

/-- The words of RFC 3312. -/
inductive StatusWord : Str → Status → Prop
  | e2e {s} : Reads s "e2e" → StatusWord s .e2e
  | near {s} : Reads s "local" → StatusWord s .near
  | remote {s} : Reads s "remote" → StatusWord s .remote
inductive WayWord : Str → Way → Prop
  | send {s} : Reads s "send" → WayWord s .send
  | recv {s} : Reads s "recv" → WayWord s .recv
  | both {s} : Reads s "sendrecv" → WayWord s .both
  | none {s} : Reads s "none" → WayWord s .none
inductive StrengthWord : Str → Strength → Prop
  | mandatory {s} : Reads s "mandatory" → StrengthWord s .mandatory
  | optional {s} : Reads s "optional" → StrengthWord s .optional
  | none {s} : Reads s "none" → StrengthWord s .none
  | failure {s} : Reads s "failure" → StrengthWord s .failure
  | unknown {s} : Reads s "unknown" → StrengthWord s .unknown
inductive KindWord : Str → Kind → Prop
  | qos {s} : Reads s "qos" → KindWord s .qos
  | other {s} : ¬ Reads s "qos" → KindWord s (.other s)

/-- A value `<kind> <status> <direction>`. -/
def CurrText (v : Str) (c : Curr) : Prop :=
  ∃ a b w, Words v [a, b, w] ∧ KindWord a c.kind ∧ StatusWord b c.status ∧ WayWord w c.way

/-- A value `<kind> <strength> <status> <direction>`. -/
def DesText (v : Str) (d : Des) : Prop :=
  ∃ a g b w, Words v [a, g, b, w] ∧ KindWord a d.kind ∧ StrengthWord g d.strength ∧ StatusWord b d.status ∧ WayWord w d.way

/-- `xs` are the values, of the attributes with the name, that can be read; in their order. -/
inductive Listed {β : Type} (name : String) (R : Str → β → Prop) : List Attr → List β → Prop
  | nil : Listed name R [] []
  | take {a v x as xs} : a.name = name.toList → a.value = some v → R v x → Listed name R as xs →
      Listed name R (a :: as) (x :: xs)
  | skip {a as xs} : (a.name = name.toList → ∀ v, a.value = some v → ∀ x, ¬ R v x) → Listed name R as xs →
      Listed name R (a :: as) xs

/-- The directions in which resources are reserved: sending, receiving. -/
def Dirs : Way → Bool × Bool
  | .send => (true, false)
  | .recv => (false, true)
  | .both => (true, true)
  | .none => (false, false)

/-- What is reserved is enough for what is wanted. -/
def Enough (have_ want : Way) : Prop :=
  ((Dirs want).1 = true → (Dirs have_).1 = true) ∧ ((Dirs want).2 = true → (Dirs have_).2 = true)

/-- The same status as the other side sees it. -/
inductive Opposite : Status → Status → Prop
  | e2e : Opposite .e2e .e2e
  | near : Opposite .near .remote
  | remote : Opposite .remote .near

/-- The same direction as the other side sees it: it receives what this one sends. -/
def Turned (w w' : Way) : Prop := Dirs w' = ((Dirs w).2, (Dirs w).1)

/-- The answer to a current status: the status of the whole path is copied, those of the two access networks are the
answerer's. -/
def CurrAnswer (o : Options) (c c' : Curr) : Prop :=
  c.kind = .qos ∧ c'.kind = .qos ∧ Opposite c.status c'.status ∧
    (c'.status = .e2e → Turned c.way c'.way) ∧
    (c'.status = .near → o.qosLocal = some c'.way ∨ (o.qosLocal = none ∧ c'.way = .none)) ∧
    (c'.status = .remote → o.qosRemote = some c'.way ∨ (o.qosRemote = none ∧ c'.way = .none))

/-- The answer to a desired status; an optional one can be made mandatory. -/
def DesAnswer (o : Options) (d d' : Des) : Prop :=
  d.kind = .qos ∧ d'.kind = .qos ∧ Opposite d.status d'.status ∧ Turned d.way d'.way ∧
    ((o.upgrade = true ∧ d.strength = .optional ∧ d'.strength = .mandatory) ∨
     (¬ (o.upgrade = true ∧ d.strength = .optional) ∧ d'.strength = d.strength))

/-- The answer to a `conf` attribute. -/
def ConfAnswer (c c' : Curr) : Prop := c.kind = .qos ∧ c'.kind = .qos ∧ Opposite c.status c'.status ∧ Turned c.way c'.way

/-- The answers to those of kind `qos`, in order. -/
inductive Answers {α : Type} (kind : α → Kind) (R : α → α → Prop) : List α → List α → Prop
  | nil : Answers kind R [] []
  | take {x y xs ys} : R x y → Answers kind R xs ys → Answers kind R (x :: xs) (y :: ys)
  | skip {x xs ys} : kind x ≠ .qos → Answers kind R xs ys → Answers kind R (x :: xs) ys

/-! ## The answer -/

/-- What an answer never has for a stream. -/
def Plain (a : Media) : Prop := a.portCount = none ∧ a.title = none ∧ a.connection = none ∧ a.bandwidth = [] ∧ a.key = none

/-- The stream is refused. -/
structure Refuses (m a : Media) : Prop where
  media : a.media = m.media
  proto : a.proto = m.proto
  mid : a.mid = m.mid
  capabilities : a.capabilities = m.capabilities
  port : a.port = 0
  fmt : a.fmt = m.fmt
  bare : a.attributes = [] ∧ a.rtcp = none
  plain : Plain a

/-- The stream is taken. -/
structure Takes (o : Options) (m a : Media) (port : Nat) : Prop where
  media : a.media = m.media
  proto : a.proto = m.proto
  mid : a.mid = m.mid
  capabilities : a.capabilities = m.capabilities
  rtcp : a.rtcp = m.rtcp
  plain : Plain a
  port : a.port = port
  /-- no format twice -/
  once : a.fmt.Nodup
  /-- the formats are those that both sides have -/
  fmt : ∀ p, p ∈ a.fmt ↔ ∃ r, Common o m p r
  /-- and they mean what they mean in the offer -/
  means : ∀ p r, Means a p r ↔ Common o m p r
  /-- with the same parameters -/
  fmtp : ∀ p ∈ a.fmt, ∀ v, FmtpOf a.attributes p v ↔ FmtpOf m.attributes p v
  /-- the answerer sends what the offerer receives, and receives what it sends -/
  dir : o.direction = none → ∀ s r, Declares m.attributes (s, r) → Declares a.attributes (r, s)
  /-- unless the application asks for a direction -/
  override : ∀ d, o.direction = some d → Declares a.attributes (Pair d)
  curr : ∀ cs, Listed "curr" CurrText m.attributes cs →
    ∃ cs', Listed "curr" CurrText a.attributes cs' ∧ Answers (·.kind) (CurrAnswer o) cs cs'
  des : ∀ ds, Listed "des" DesText m.attributes ds →
    ∃ ds', Listed "des" DesText a.attributes ds' ∧ Answers (·.kind) (DesAnswer o) ds ds'
  conf : ∀ cs, Listed "conf" CurrText m.attributes cs →
    ∃ cs', Listed "conf" CurrText a.attributes cs' ∧ Answers (·.kind) ConfAnswer cs cs'

/-- The stream with this index is taken. -/
def Taken (o : Options) (i : Nat) (m : Media) : Prop := i ∉ o.reject ∧ ∃ p r, Common o m p r

/-- The streams of the answer, one for each of the offer; the next free port goes up by two with every stream taken. -/
inductive Answered (o : Options) : Nat → Nat → List Media → List Media → Prop
  | nil {i port} : Answered o i port [] []
  | refuse {i port m a ms as} : ¬ Taken o i m → Refuses m a → Answered o (i + 1) port ms as →
      Answered o i port (m :: ms) (a :: as)
  | take {i port m a ms as} : Taken o i m → Takes o m a port → Answered o (i + 1) (port + 2) ms as →
      Answered o i port (m :: ms) (a :: as)

/-- The number of streams taken. -/
inductive Count (o : Options) : Nat → List Media → Nat → Prop
  | nil {i} : Count o i [] 0
  | refuse {i m ms k} : ¬ Taken o i m → Count o (i + 1) ms k → Count o i (m :: ms) k
  | take {i m ms k} : Taken o i m → Count o (i + 1) ms k → Count o i (m :: ms) (k + 1)

/-! ## Hold and resume -/

/-- The attributes that are not directions, in order. -/
inductive Others : List Attr → List Attr → Prop
  | nil : Others [] []
  | keep {a as bs} : (∀ d, ¬ IsDir a d) → Others as bs → Others (a :: as) (a :: bs)
  | drop {a d as bs} : IsDir a d → Others as bs → Others (a :: as) bs

/-- The stream with another direction: everything else is as it was. -/
def Redirected (m m' : Media) (d : Bool × Bool) : Prop :=
  Declares m'.attributes d ∧ (∃ bs, Others m.attributes bs ∧ Others m'.attributes bs) ∧ { m with attributes := [] } = { m' with attributes := [] }

/-- The version of a changed description. -/
def Next (v v' : Str) : Prop :=
  (∃ n, Decimal v n ∧ n < 2 ^ 64 - 1 ∧ v' = showNat (n + 1)) ∨ ((∀ n, n < 2 ^ 64 → ¬ Decimal v n) ∧ v' = v)

/-- A description with other directions. -/
structure Changed (f : Bool × Bool → Bool × Bool) (s s' : Session) : Prop where
  version : Next s.origin.sessVersion s'.origin.sessVersion
  rest : { s with origin := { s.origin with sessVersion := [] }, media := [] } =
    { s' with origin := { s'.origin with sessVersion := [] }, media := [] }
  media : List.Forall₂ (fun m m' => ∀ d, Declares m.attributes d → Redirected m m' (f d)) s.media s'.media

end Siphon.Offer.Spec
