import Verif.Base.Text
/-! Arithmetic facts about characters, used by proofs. -/
namespace Siphon
theorem char_ext_toNat {a b : Char} (h : a.toNat = b.toNat) : a = b :=
  Char.ext (UInt32.toNat_inj.mp h)

theorem toUpper_toNat (c : Char) :
    c.toUpper.toNat = if 97 ≤ c.toNat ∧ c.toNat ≤ 122 then c.toNat - 32 else c.toNat := by
  unfold Char.toUpper
  by_cases h : 97 ≤ c.toNat ∧ c.toNat ≤ 122
  · rw [if_pos h, dif_pos (by simpa [UInt32.le_iff_toNat_le] using h)]
    rw [← Char.toNat_val]
    simp only [UInt32.toNat_add]
    simp
    omega
  · rw [if_neg h, dif_neg (by simpa [UInt32.le_iff_toNat_le] using h)]

theorem toLower_toNat (c : Char) :
    c.toLower.toNat = if 65 ≤ c.toNat ∧ c.toNat ≤ 90 then c.toNat + 32 else c.toNat := by
  unfold Char.toLower
  by_cases h : 65 ≤ c.toNat ∧ c.toNat ≤ 90
  · rw [if_pos h, dif_pos (by simpa [UInt32.le_iff_toNat_le] using h)]
    rw [← Char.toNat_val]
    simp only [UInt32.toNat_add]
    simp
    omega
  · rw [if_neg h, dif_neg (by simpa [UInt32.le_iff_toNat_le] using h)]

theorem char_le_iff (a b : Char) : a ≤ b ↔ a.toNat ≤ b.toNat := by
  simp [Char.le_def, UInt32.le_iff_toNat_le]

theorem char_eq_iff (a b : Char) : a = b ↔ a.toNat = b.toNat :=
  ⟨fun h => by rw [h], char_ext_toNat⟩

theorem toLower_toUpper (c : Char) : c.toUpper.toLower = c.toLower := by
  rw [char_eq_iff, toLower_toNat, toLower_toNat, toUpper_toNat]
  repeat' split
  all_goals omega
theorem toUpper_toUpper (c : Char) : c.toUpper.toUpper = c.toUpper := by
  rw [char_eq_iff, toUpper_toNat, toUpper_toNat]
  repeat' split
  all_goals omega
theorem toUpper_toLower (c : Char) : c.toLower.toUpper = c.toUpper := by
  rw [char_eq_iff, toUpper_toNat, toLower_toNat, toUpper_toNat]
  repeat' split
  all_goals omega
theorem toLower_toLower (c : Char) : c.toLower.toLower = c.toLower := by
  rw [char_eq_iff, toLower_toNat, toLower_toNat]
  repeat' split
  all_goals omega

theorem utf8Size_toNat (c : Char) : c.utf8Size =
    if c.toNat ≤ 127 then 1 else if c.toNat ≤ 2047 then 2 else if c.toNat ≤ 65535 then 3 else 4 := by
  simp [Char.utf8Size, UInt32.le_iff_toNat_le]

theorem utf8Size_toUpper (c : Char) : c.toUpper.utf8Size = c.utf8Size := by
  rw [utf8Size_toNat, utf8Size_toNat, toUpper_toNat]
  repeat' split
  all_goals omega
theorem utf8Size_toLower (c : Char) : c.toLower.utf8Size = c.utf8Size := by
  rw [utf8Size_toNat, utf8Size_toNat, toLower_toNat]
  repeat' split
  all_goals omega

theorem isAlnum_iff (c : Char) : isAlnum c = true ↔
    (97 ≤ c.toNat ∧ c.toNat ≤ 122) ∨ (65 ≤ c.toNat ∧ c.toNat ≤ 90) ∨ (48 ≤ c.toNat ∧ c.toNat ≤ 57) := by
  simp [isAlnum, isAlpha, isDigit, char_le_iff, or_assoc]


theorem upper_upper (s : Str) : upper (upper s) = upper s := by
  simp [upper, toUpper_toUpper]

theorem lower_upper (s : Str) : lower (upper s) = lower s := by
  simp [upper, lower, toLower_toUpper]

theorem lower_lower (s : Str) : lower (lower s) = lower s := by
  simp [lower, toLower_toLower]

theorem upper_lower (s : Str) : upper (lower s) = upper s := by
  simp [upper, lower, toUpper_toLower]

theorem upper_eq_of_lower_eq (a b : Str) (h : lower a = lower b) : upper a = upper b := by
  rw [← upper_lower a, h, upper_lower]

theorem utf8Len_upper (s : Str) : utf8Len (upper s) = utf8Len s := by
  simp [utf8Len, upper, Function.comp_def, utf8Size_toUpper]

theorem utf8Len_lower (s : Str) : utf8Len (lower s) = utf8Len s := by
  simp [utf8Len, lower, Function.comp_def, utf8Size_toLower]

theorem isAsciiControl_toUpper (c : Char) : isAsciiControl c.toUpper = isAsciiControl c := by
  rw [Bool.eq_iff_iff]
  simp only [isAsciiControl, Bool.or_eq_true, decide_eq_true_eq, beq_iff_eq, toUpper_toNat]
  split <;> omega

theorem isAsciiControl_toLower (c : Char) : isAsciiControl c.toLower = isAsciiControl c := by
  rw [Bool.eq_iff_iff]
  simp only [isAsciiControl, Bool.or_eq_true, decide_eq_true_eq, beq_iff_eq, toLower_toNat]
  split <;> omega

end Siphon
