import Verif.Dialog.Model
import Verif.Base.TextSpec
import Verif.Core.HeadersSpec
/-!
# What the properties of dialogs are about

Reading of messages, described without the model's parsing functions.
-/
namespace Siphon.Dlg.Spec
open TextSpec HdrSpec

/-- The first header named `n` of the message has the value `v`. -/
def First (hs : Headers) (n : String) (v : Str) : Prop := ∃ more, Selects n.toList hs.inner (v :: more)

/-- No header is named `n`. -/
def Absent (hs : Headers) (n : String) : Prop := Selects n.toList hs.inner []

/-- The message carries the CSeq number `n` (a 32-bit number). -/
def CSeqOf (hs : Headers) (n : Nat) : Prop :=
  ∃ v w ws, First hs "CSeq" v ∧ Words v (w :: ws) ∧ Decimal w n ∧ n < 2 ^ 32

/-- The piece, without the space around it, is `tag=` (in any case) and then `t`. -/
def TagPiece (p t : Str) : Prop := ∃ k, Strips isWs p (k ++ t) ∧ SameName k "tag=".toList

/-- `t` is the tag of a From or To value: the text after the first `tag=` among the pieces between
semicolons. -/
def TagOf (v t : Str) : Prop :=
  ∃ pre p post, Pieces ';' v (pre ++ p :: post) ∧ TagPiece p t ∧ ∀ q ∈ pre, ∀ x, ¬ TagPiece q x

/-- No piece is a tag. -/
def NoTag (v : Str) : Prop := ∃ ps, Pieces ';' v ps ∧ ∀ q ∈ ps, ∀ x, ¬ TagPiece q x

/-- The three parts that name the dialog a message belongs to. -/
def Names (hs : Headers) (callId fromTag toTag : Str) : Prop :=
  First hs "Call-ID" callId ∧ (∃ v, First hs "From" v ∧ TagOf v fromTag) ∧ (∃ v, First hs "To" v ∧ TagOf v toTag)

/-- All the text of a message is ASCII. -/
def AsciiHeaders (hs : Headers) : Prop := ∀ h ∈ hs.inner, ∀ c ∈ h.value, c.toNat < 128

/-- The CSeq numbers of the non-ACK requests accepted in a history, in order. -/
inductive Accepts : Dialog → List DOp → List Nat → Prop
  | nil {d} : Accepts d [] []
  | take {d d' r n ops ns} : d.updateFromRequest r = (.ok (), d') → r.method.asStr ≠ "ACK".toList →
      CSeqOf r.headers n → Accepts d' ops ns → Accepts d (.request r :: ops) (n :: ns)
  | ack {d d' r ops ns} : d.updateFromRequest r = (.ok (), d') → r.method.asStr = "ACK".toList →
      Accepts d' ops ns → Accepts d (.request r :: ops) ns
  | refuse {d d' e r ops ns} : d.updateFromRequest r = (.error e, d') → Accepts d' ops ns →
      Accepts d (.request r :: ops) ns
  | other {d o ops ns} : (∀ r, o ≠ .request r) → Accepts (d.step o) ops ns → Accepts d (o :: ops) ns

/-- The numbers handed out for requests of our own in a history, in order. -/
inductive Hands : Dialog → List DOp → List Nat → Prop
  | nil {d} : Hands d [] []
  | next {d n d' ops ns} : d.nextLocalCSeq = (n, d') → Hands d' ops ns → Hands d (.next :: ops) (n :: ns)
  | other {d o ops ns} : o ≠ .next → Hands (d.step o) ops ns → Hands d (o :: ops) ns

/-- Early, then confirmed, then terminated. -/
inductive Later : DState → DState → Prop
  | same {s} : Later s s
  | confirmed : Later .early .confirmed
  | terminated {s} : Later s .terminated

/-- Each number is larger than the one before by at most 1000. -/
inductive Climbs : Nat → List Nat → Prop
  | nil {a} : Climbs a []
  | cons {a n ns} : a < n → n ≤ a + 1000 → Climbs n ns → Climbs a (n :: ns)

end Siphon.Dlg.Spec
