import Verif.Version.Model
import Verif.Base.Strip
import Verif.Date.Props
import Verif.Auth.LemmasText
/-!
# C147: the version of the protocol
-/
namespace Siphon.Version
open TextSpec HdrSpec

theorem digit_iff (c : Char) : isDigit c = true ↔ 48 ≤ c.toNat ∧ c.toNat ≤ 57 := by
  unfold isDigit
  simp only [Bool.and_eq_true, decide_eq_true_eq, Char.le_def]
  exact Iff.rfl

theorem decimal_digits {s : Str} {n : Nat} (h : Decimal s n) (hd : ∀ c ∈ s, isDigit c = true) : DecDigits s n := by
  rcases h with h | ⟨r, rfl, _⟩
  · exact h
  · exact absurd (hd '+' (by simp)) (by decide)

theorem digits_ne {s : Str} {n : Nat} (h : DecDigits s n) : s ≠ [] := by
  cases h <;> simp

theorem letter_plain (c : Char) (h : c.toLower ∈ ['s', 'i', 'p', '/']) : isControl c = false := by
  have h' : c.toLower.toNat = 115 ∨ c.toLower.toNat = 105 ∨ c.toLower.toNat = 112 ∨ c.toLower.toNat = 47 := by
    simp only [List.mem_cons, List.not_mem_nil, or_false] at h
    rcases h with h | h | h | h <;> rw [h] <;> decide
  rw [toLower_toNat] at h'
  unfold isControl
  have : ¬ c.toNat < 32 ∧ ¬ (127 ≤ c.toNat ∧ c.toNat ≤ 159) := by
    split at h' <;> omega
  simp only [Bool.or_eq_false_iff, decide_eq_false_iff_not, Bool.and_eq_false_iff]
  omega

/-- **C147**: a text names the version exactly if, without the blanks around it, it is `SIP/` in any case, a number that is two, a dot, and
a number that is zero. -/
theorem C147_version (s : Str) : parse s = true ↔ ∃ t k a b, Strips (fun c => c == ' ' || c == '\t') s t ∧ t = k ++ a ++ '.' :: b ∧
    SameName k "SIP/".toList ∧ DecDigits a 2 ∧ DecDigits b 0 := by
  have hstrip : ∀ t, Strips (fun c => c == ' ' || c == '\t') s t ↔ t = trimBlanks s := fun t => strips_iff _ _ _
  constructor
  · intro h
    unfold parse at h
    split at h
    · cases h
    · simp only at h
      split at h
      · cases h
      · rename_i hk
        split at h
        · cases h
        · rename_i a b hs
          split at h
          · cases h
          · rename_i hab
            simp only [Bool.or_eq_true, not_or, Bool.not_eq_true, Bool.not_eq_false', List.all_eq_true] at hab
            simp only [Bool.and_eq_true, beq_iff_eq, parseDec_iff] at h
            obtain ⟨he, _⟩ := (Auth.splitOnce_some_iff _ _ _ _).mp hs
            refine ⟨_, (trimBlanks s).take 4, a, b, (hstrip _).mpr rfl, ?_, (sameName_iff _ _).mpr (by simpa using hk),
              decimal_digits h.1.1 hab.1.2, decimal_digits h.2.1 hab.2⟩
            rw [List.append_assoc, ← he, List.take_append_drop]
  · rintro ⟨t, k, a, b, ht, rfl, hk, ha, hb⟩
    have hk' := (sameName_iff _ _).mp hk
    have hkl : lower k = ['s', 'i', 'p', '/'] := by
      unfold eqIgnoreCase at hk'
      rw [beq_iff_eq] at hk'
      rw [hk']; decide
    have hlen : k.length = 4 := by
      have := congrArg List.length hkl
      unfold lower at this
      simpa using this
    have da := DateHdr.digits_all ha
    have db := DateHdr.digits_all hb
    have hctl : (s.any fun c => isControl c && c != '\t') = false := by
      obtain ⟨x, y, rfl, hx, hy, _⟩ := ht
      have hbl : ∀ c : Char, (c == ' ' || c == '\t') = true → (isControl c && c != '\t') = false := by
        intro c hc
        simp only [Bool.or_eq_true, beq_iff_eq] at hc
        rcases hc with rfl | rfl <;> decide
      have hdg : ∀ c : Char, 48 ≤ c.toNat ∧ c.toNat ≤ 57 → (isControl c && c != '\t') = false := by
        intro c hc
        have : isControl c = false := by
          unfold isControl
          simp only [Bool.or_eq_false_iff, decide_eq_false_iff_not, Bool.and_eq_false_iff]
          omega
        rw [this]; rfl
      apply List.any_eq_false.mpr
      intro c hc
      rw [Bool.not_eq_true]
      simp only [List.mem_append, List.mem_cons] at hc
      rcases hc with (hc | (hc | hc) | hc | hc) | hc
      · exact hbl c (hx c hc)
      · have : c.toLower ∈ lower k := List.mem_map.mpr ⟨c, hc, rfl⟩
        rw [hkl] at this
        rw [letter_plain c this]; rfl
      · exact hdg c (da c hc)
      · rw [hc]; decide
      · exact hdg c (db c hc)
      · exact hbl c (hy c hc)
    unfold parse
    rw [hctl, if_neg (by decide)]
    simp only
    rw [← (hstrip _).mp ht]
    have e1 : (k ++ a ++ '.' :: b).take 4 = k := by rw [List.append_assoc, ← hlen, List.take_left]
    have e2 : (k ++ a ++ '.' :: b).drop 4 = a ++ '.' :: b := by rw [List.append_assoc, ← hlen, List.drop_left]
    have hdot : '.' ∉ a := fun hm => by have := da '.' hm; exact absurd this (by decide)
    rw [e1, e2, hk', if_neg (by decide), (Auth.splitOnce_some_iff _ _ _ _).mpr ⟨rfl, hdot⟩]
    simp only
    have na : a.isEmpty = false := by simpa using digits_ne ha
    have nb : b.isEmpty = false := by simpa using digits_ne hb
    have aa : a.all isDigit = true := List.all_eq_true.mpr (fun c hc => (digit_iff c).mpr (da c hc))
    have ab : b.all isDigit = true := List.all_eq_true.mpr (fun c hc => (digit_iff c).mpr (db c hc))
    rw [na, nb, aa, ab, if_neg (by decide), (parseDec_iff _ _ _).mpr ⟨.inl ha, by omega⟩, (parseDec_iff _ _ _).mpr ⟨.inl hb, by omega⟩]
    rfl

example : parse " sip/2.0\t".toList = true := by decide +kernel

/-- **C147** fails: RFC 3261 has one spelling but for case, but zeros in front, which the reader of messages refuses, are accepted here. -/
theorem C147_zeros : parse "SIP/02.00".toList = true ∧ ¬ SameName "SIP/02.00".toList "SIP/2.0".toList := by
  refine ⟨by decide +kernel, fun h => ?_⟩
  exact absurd ((sameName_iff _ _).mp h) (by decide)

end Siphon.Version
