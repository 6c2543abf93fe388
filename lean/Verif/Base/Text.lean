/-!
# Text primitives

Rust `&str` values are modelled as `List Char` (a `str` is exactly a sequence of Unicode
scalar values).  Each definition mirrors one standard-library operation the crates use.
-/

deriving instance DecidableEq for Except

namespace Siphon

abbrev Str := List Char

/-- `str::len`: number of UTF-8 bytes. -/
def utf8Len (s : Str) : Nat := (s.map Char.utf8Size).sum

/-- `char::is_whitespace` (Unicode `White_Space`). -/
def isWs (c : Char) : Bool :=
  let n := c.toNat
  (0x9 ≤ n && n ≤ 0xD) || n == 0x20 || n == 0x85 || n == 0xA0 || n == 0x1680 ||
  (0x2000 ≤ n && n ≤ 0x200A) || n == 0x2028 || n == 0x2029 || n == 0x202F || n == 0x205F ||
  n == 0x3000

/-- `char::is_ascii_control`. -/
def isAsciiControl (c : Char) : Bool := c.toNat < 0x20 || c.toNat == 0x7F

/-- `char::is_control` (Unicode `Cc`). -/
def isControl (c : Char) : Bool := c.toNat < 0x20 || (0x7F ≤ c.toNat && c.toNat ≤ 0x9F)

/-- `char::is_ascii_digit`. -/
def isDigit (c : Char) : Bool := '0' ≤ c && c ≤ '9'

/-- `char::is_ascii_alphabetic`. -/
def isAlpha (c : Char) : Bool := ('a' ≤ c && c ≤ 'z') || ('A' ≤ c && c ≤ 'Z')

/-- `char::is_ascii_alphanumeric`. -/
def isAlnum (c : Char) : Bool := isAlpha c || isDigit c

/-- `str::trim_start`. -/
def trimStart (s : Str) : Str := s.dropWhile isWs

/-- `str::trim_end`. -/
def trimEnd (s : Str) : Str := (s.reverse.dropWhile isWs).reverse

/-- `str::trim`. -/
def trim (s : Str) : Str := trimEnd (trimStart s)

/-- `str::to_ascii_lowercase`. -/
def lower (s : Str) : Str := s.map Char.toLower

/-- `str::to_ascii_uppercase`. -/
def upper (s : Str) : Str := s.map Char.toUpper

/-- `str::eq_ignore_ascii_case`. -/
def eqIgnoreCase (a b : Str) : Bool := lower a == lower b

/-- `str::split(c)` for a character: always at least one piece. -/
def splitChar (c : Char) : Str → List Str
  | [] => [[]]
  | x :: xs =>
    if x = c then [] :: splitChar c xs
    else match splitChar c xs with
      | [] => [[x]]
      | p :: ps => (x :: p) :: ps

/-- `str::split_once(c)`. -/
def splitOnce (c : Char) : Str → Option (Str × Str)
  | [] => none
  | x :: xs =>
    if x = c then some ([], xs)
    else (splitOnce c xs).map (fun p => (x :: p.1, p.2))

/-- `str::split_whitespace`. -/
def splitWhitespace (s : Str) : List Str :=
  go s []
where
  go : Str → Str → List Str
    | [], cur => if cur.isEmpty then [] else [cur.reverse]
    | x :: xs, cur =>
      if isWs x then (if cur.isEmpty then go xs [] else cur.reverse :: go xs [])
      else go xs (x :: cur)

/-! ## Lemmas -/

theorem splitChar_ne_nil (c : Char) (s : Str) : splitChar c s ≠ [] := by
  cases s with
  | nil => simp [splitChar]
  | cons x xs =>
    simp only [splitChar]
    split
    · simp
    · split <;> simp

theorem splitChar_of_not_mem (c : Char) (s : Str) (h : c ∉ s) : splitChar c s = [s] := by
  induction s with
  | nil => rfl
  | cons x xs ih =>
    simp only [List.mem_cons, not_or] at h
    simp only [splitChar, if_neg (Ne.symm h.1), ih h.2]

theorem splitChar_append_sep (c : Char) (a b : Str) (h : c ∉ a) :
    splitChar c (a ++ c :: b) = a :: splitChar c b := by
  induction a with
  | nil => simp [splitChar]
  | cons x xs ih =>
    simp only [List.mem_cons, not_or] at h
    simp only [List.cons_append, splitChar, if_neg (Ne.symm h.1), ih h.2]

theorem splitOnce_append (c : Char) (a b : Str) (h : c ∉ a) :
    splitOnce c (a ++ c :: b) = some (a, b) := by
  induction a with
  | nil => simp [splitOnce]
  | cons x xs ih =>
    simp only [List.mem_cons, not_or] at h
    simp [splitOnce, Ne.symm h.1, ih h.2]

theorem splitOnce_none (c : Char) (a : Str) (h : c ∉ a) : splitOnce c a = none := by
  induction a with
  | nil => rfl
  | cons x xs ih =>
    simp only [List.mem_cons, not_or] at h
    simp [splitOnce, Ne.symm h.1, ih h.2]

/-- first and last character are not white space -/
def Trimmed (s : Str) : Prop :=
  (∀ c, s.head? = some c → isWs c = false) ∧ (∀ c, s.getLast? = some c → isWs c = false)

theorem dropWhile_of_head {p : Char → Bool} (s : Str) (h : ∀ c, s.head? = some c → p c = false) :
    s.dropWhile p = s := by
  cases s with
  | nil => rfl
  | cons x xs => simp [List.dropWhile, h x rfl]

theorem trim_of_trimmed (s : Str) (h : Trimmed s) : trim s = s := by
  unfold trim trimEnd trimStart
  rw [dropWhile_of_head s h.1, dropWhile_of_head s.reverse (by simpa using h.2), List.reverse_reverse]

theorem trimmed_nil : Trimmed [] := by simp [Trimmed]

theorem trimmed_of_all (s : Str) (h : ∀ c ∈ s, isWs c = false) : Trimmed s := by
  constructor
  · intro c hc; exact h c (List.mem_of_mem_head? hc)
  · intro c hc; exact h c (List.mem_of_getLast? hc)

end Siphon
