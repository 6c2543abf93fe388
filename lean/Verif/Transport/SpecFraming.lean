import Verif.Transport.Framing

/-!
# What framing should mean

Vocabulary for the framing properties, written as relations on byte strings: nothing here calls
the parsing functions of the model.
-/

namespace Siphon.Transport

/-- A run of line ends: the only bytes allowed between messages. -/
def LineEnds (g : Bytes) : Prop := ∀ b ∈ g, b = CR ∨ b = LF

/-- The blank line that ends a header block. -/
abbrev blank : Bytes := [CR, LF, CR, LF]

/-- ASCII white space. -/
def White (b : UInt8) : Prop := b = 32 ∨ b = 9 ∨ b = 10 ∨ b = 12 ∨ b = 13

/-- `v` is `s` without the white space around it. -/
def Stripped (s v : Bytes) : Prop :=
  ∃ a b, s = a ++ v ++ b ∧ (∀ x ∈ a, White x) ∧ (∀ x ∈ b, White x) ∧
    (∀ x, v.head? = some x → ¬ White x) ∧ (∀ x, v.getLast? = some x → ¬ White x)

/-- `l` is one of the lines of `head`: the pieces that give `head` when joined with LF. -/
def HasLine (head l : Bytes) : Prop :=
  ∃ ls : List Bytes, ls ≠ [] ∧ (∀ x ∈ ls, LF ∉ x) ∧ [LF].intercalate ls = head ∧ l ∈ ls

/-- `Content-Length` or `l`, in any case. -/
def LengthName (n : Bytes) : Prop :=
  n.map lowerB = [99, 111, 110, 116, 101, 110, 116, 45, 108, 101, 110, 103, 116, 104] ∨
  n.map lowerB = [108]

/-- The header block has a Content-Length line whose value is `v`. -/
def LengthField (head v : Bytes) : Prop :=
  ∃ name name' value, HasLine head (name ++ COLON :: value) ∧ COLON ∉ name ∧
    Stripped name name' ∧ LengthName name' ∧ Stripped value v

/-- `v` is a decimal numeral for `n`. -/
def Numeral (v : Bytes) (n : Nat) : Prop :=
  v ≠ [] ∧ (∀ b ∈ v, 48 ≤ b.toNat ∧ b.toNat ≤ 57) ∧
    v.foldl (fun acc b => acc * 10 + (b.toNat - 48)) 0 = n

/-- The header block declares a body of `n` bytes: it has a Content-Length line, and every such
line says `n`. -/
def Declares (head : Bytes) (n : Nat) : Prop :=
  (∃ v, LengthField head v) ∧ ∀ v, LengthField head v → Numeral v n

/-- `head` is what stands before the first blank line of a message: it does not start with a
line end, and `head ++ blank` has its only blank line at the end. -/
def HeaderBlock (head : Bytes) : Prop :=
  (∃ b t, head = b :: t ∧ b ≠ CR ∧ b ≠ LF) ∧
    ∀ a c, head ++ blank = a ++ blank ++ c → head.length ≤ a.length

/-- A complete message: header block, blank line, and exactly as many body bytes as the header
block declares, within the size limits. -/
def Message (maxHead : Nat) (f : Bytes) : Prop :=
  ∃ head body, f = head ++ blank ++ body ∧ HeaderBlock head ∧ head.length ≤ maxHead ∧
    Declares head body.length ∧ body.length ≤ 10485760

/-- `w` is the frames `fs` in order with nothing but line ends before each, then `r`. -/
inductive Layout : Bytes → List Bytes → Bytes → Prop
  | done (g r : Bytes) : LineEnds g → Layout (g ++ r) [] r
  | cons (g f w : Bytes) (fs : List Bytes) (r : Bytes) :
      LineEnds g → Layout w fs r → Layout (g ++ f ++ w) (f :: fs) r

/-- What may be left of a stream once its complete messages are gone: a header block in progress,
or a message whose body is not complete, with the header block three bytes below the limit. -/
def Tail (r : Bytes) : Prop :=
  (∀ x, r.head? = some x → x ≠ CR ∧ x ≠ LF) ∧
  ((r.length ≤ 65536 ∧ ∀ a c, r ≠ a ++ blank ++ c) ∨
   ∃ head body n, r = head ++ blank ++ body ∧ HeaderBlock head ∧ head.length ≤ 65533 ∧
      Declares head n ∧ n ≤ 10485760 ∧ body.length < n)

/-- `chunks` is a way the network may deliver the bytes `w`: non-empty pieces in order. -/
def Delivers (chunks : List Bytes) (w : Bytes) : Prop :=
  chunks.flatten = w ∧ ∀ c ∈ chunks, c ≠ []

end Siphon.Transport
