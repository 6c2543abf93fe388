import Verif.Base.Text
import Verif.Base.CharLemmas
/-! Decimal numbers: `to_string` of an unsigned integer and `str::parse::<uN>`. -/
namespace Siphon

/-- The decimal digit for `d < 10`. -/
def digitChar (d : Nat) : Char := Char.ofNat (48 + d)

/-- Decimal digits, most significant first (the first argument is fuel). -/
def showNatGo : Nat → Nat → Str
  | 0, n => [digitChar (n % 10)]
  | f + 1, n => if n < 10 then [digitChar n] else showNatGo f (n / 10) ++ [digitChar (n % 10)]

/-- `format!("{}", n)` for an unsigned integer. -/
def showNat (n : Nat) : Str := showNatGo n n

/-- digits of `str::parse::<uN>`, `max` being the largest value of the type. -/
def parseDecDigits (max : Nat) : Str → Nat → Option Nat
  | [], acc => some acc
  | c :: cs, acc =>
    if isDigit c then
      (if acc * 10 + (c.toNat - 48) > max then none else parseDecDigits max cs (acc * 10 + (c.toNat - 48)))
    else none

/-- `str::parse::<uN>`: an optional `+`, then at least one digit, no overflow. -/
def parseDec (max : Nat) (s : Str) : Option Nat :=
  match s with
  | [] => none
  | ['+'] => none
  | '+' :: rest => parseDecDigits max rest 0
  | _ => parseDecDigits max s 0

theorem digitChar_toNat (d : Nat) (h : d < 10) : (digitChar d).toNat = 48 + d := by
  match d, h with
  | 0, _ | 1, _ | 2, _ | 3, _ | 4, _ | 5, _ | 6, _ | 7, _ | 8, _ | 9, _ => rfl

theorem isDigit_iff (c : Char) : isDigit c = true ↔ 48 ≤ c.toNat ∧ c.toNat ≤ 57 := by
  simp [isDigit, char_le_iff]

theorem isDigit_digitChar (d : Nat) (h : d < 10) : isDigit (digitChar d) = true := by
  rw [isDigit_iff, digitChar_toNat d h]; omega

theorem showNatGo_digits : ∀ f n, ∀ c ∈ showNatGo f n, isDigit c = true
  | 0, n => by
    intro c hc
    simp only [showNatGo, List.mem_singleton] at hc
    subst hc; exact isDigit_digitChar _ (Nat.mod_lt _ (by omega))
  | f + 1, n => by
    intro c hc
    simp only [showNatGo] at hc
    split at hc
    · simp only [List.mem_singleton] at hc
      subst hc; exact isDigit_digitChar _ (by omega)
    · simp only [List.mem_append, List.mem_singleton] at hc
      rcases hc with hc | hc
      · exact showNatGo_digits f _ c hc
      · subst hc; exact isDigit_digitChar _ (Nat.mod_lt _ (by omega))

theorem showNat_digits (n : Nat) : ∀ c ∈ showNat n, isDigit c = true := showNatGo_digits n n

theorem showNatGo_ne_nil : ∀ f n, showNatGo f n ≠ []
  | 0, n => by simp [showNatGo]
  | f + 1, n => by
    simp only [showNatGo]
    split <;> simp

theorem showNat_ne_nil (n : Nat) : showNat n ≠ [] := showNatGo_ne_nil n n

theorem parseDecDigits_append (max : Nat) (a b : Str) (acc : Nat) :
    parseDecDigits max (a ++ b) acc = (parseDecDigits max a acc).bind (parseDecDigits max b) := by
  induction a generalizing acc with
  | nil => rfl
  | cons c cs ih =>
    simp only [List.cons_append, parseDecDigits]
    split
    · split
      · rfl
      · exact ih _
    · rfl

theorem parseDecDigits_showGo (max : Nat) : ∀ f n, n ≤ f → n ≤ max →
    parseDecDigits max (showNatGo f n) 0 = some n
  | 0, n, h, _ => by
    have : n = 0 := by omega
    subst this
    simp [showNatGo, parseDecDigits, isDigit_digitChar 0 (by omega), digitChar_toNat 0 (by omega)]
  | f + 1, n, h, hm => by
    simp only [showNatGo]
    split
    · rename_i h10
      simp only [parseDecDigits, isDigit_digitChar n h10, digitChar_toNat n h10, if_true]
      rw [if_neg (by omega)]
      congr 1; omega
    · rename_i h10
      have hlt := Nat.mod_lt n (show 0 < 10 by omega)
      rw [parseDecDigits_append, parseDecDigits_showGo max f (n / 10) (by omega) (by omega)]
      simp only [Option.bind_some, parseDecDigits, isDigit_digitChar _ hlt, digitChar_toNat _ hlt, if_true]
      rw [if_neg (by omega)]
      congr 1; omega

/-- Parsing a formatted number gives it back. -/
theorem parseDec_showNat (max n : Nat) (h : n ≤ max) : parseDec max (showNat n) = some n := by
  have hd := showNat_digits n
  have hne := showNat_ne_nil n
  have hp := parseDecDigits_showGo max n n (Nat.le_refl n) h
  unfold parseDec
  split
  · rename_i he; exact absurd he hne
  · rename_i he
    have := hd '+' (by rw [he]; simp)
    simp [isDigit] at this
  · rename_i rest _ he
    have := hd '+' (by rw [he]; simp)
    simp [isDigit] at this
  · exact hp

theorem showNat_inj {a b : Nat} (h : showNat a = showNat b) : a = b := by
  have ha := parseDec_showNat (a + b) a (by omega)
  have hb := parseDec_showNat (a + b) b (by omega)
  rw [h, hb] at ha
  simpa using ha.symm

theorem parseDecDigits_le (max : Nat) : ∀ s acc n, acc ≤ max → parseDecDigits max s acc = some n → n ≤ max
  | [], acc, n, h, e => by simp only [parseDecDigits, Option.some.injEq] at e; omega
  | c :: cs, acc, n, h, e => by
    simp only [parseDecDigits] at e
    split at e
    · split at e
      · cases e
      · exact parseDecDigits_le max cs _ n (by omega) e
    · cases e

theorem parseDec_le (max : Nat) (s : Str) (n : Nat) (e : parseDec max s = some n) : n ≤ max := by
  unfold parseDec at e
  split at e
  · cases e
  · cases e
  · exact parseDecDigits_le _ _ _ _ (by omega) e
  · exact parseDecDigits_le _ _ _ _ (by omega) e

theorem isDigit_not_ws (c : Char) (h : isDigit c = true) : isWs c = false := by
  rw [isDigit_iff] at h
  have : ¬ (isWs c = true) := by
    simp only [isWs, Bool.or_eq_true, Bool.and_eq_true, decide_eq_true_eq, beq_iff_eq]
    omega
  simpa using this

theorem trimmed_showNat (n : Nat) : Trimmed (showNat n) :=
  trimmed_of_all _ (fun c hc => isDigit_not_ws c (showNat_digits n c hc))

theorem showNat_not_mem (n : Nat) (c : Char) (h : isDigit c = false) : c ∉ showNat n := by
  intro hc
  rw [showNat_digits n c hc] at h
  cases h

example : showNat 4203 = "4203".toList := by decide +kernel
example : parseDec 4294967295 "4294967295".toList = some 4294967295 := by decide +kernel
example : parseDec 4294967295 "4294967296".toList = none := by decide +kernel

end Siphon
