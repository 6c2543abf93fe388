import Verif.Subject.Model
/-!
# C148: Subject
-/
namespace Siphon.Subject

/-- **C148**: a text is a Subject exactly if it is one line of ASCII text of at most 256 characters that are not all blank; it is kept as it
is. -/
theorem C148_subject (s t : Str) : parse s = some t ↔
    t = s ∧ (∃ c ∈ s, c ≠ ' ' ∧ c ≠ '\t') ∧ s.length ≤ 256 ∧ ∀ c ∈ s, c = '\t' ∨ (32 ≤ c.toNat ∧ c.toNat ≤ 126) := by
  have hchar : ∀ c : Char, (c == '\t' || c == ' ' || isGraphic c) = true ↔ c = '\t' ∨ (32 ≤ c.toNat ∧ c.toNat ≤ 126) := by
    intro c
    unfold isGraphic
    simp only [Bool.or_eq_true, beq_iff_eq, Bool.and_eq_true, decide_eq_true_eq]
    constructor
    · rintro ((h | rfl) | h)
      · exact .inl h
      · exact .inr (by decide)
      · exact .inr (by omega)
    · rintro (h | h)
      · exact .inl (.inl h)
      · by_cases h' : c.toNat = 32
        · refine .inl (.inr ?_)
          have : c.toNat = ' '.toNat := h'
          exact Char.toNat_inj.mp this
        · exact .inr (by omega)
  have hlen : ∀ s : Str, (∀ c ∈ s, c = '\t' ∨ (32 ≤ c.toNat ∧ c.toNat ≤ 126)) → utf8Len s = s.length := by
    intro s
    induction s with
    | nil => intro _; rfl
    | cons c s ih =>
      intro h
      have hc : c.utf8Size = 1 := by
        have h1 : c.toNat ≤ 126 := by
          rcases h c (by simp) with rfl | h
          · decide
          · exact h.2
        unfold Char.utf8Size
        rw [if_pos]
        show c.val.toNat ≤ 127
        exact Nat.le_succ_of_le h1
      have := ih (fun d hd => h d (by simp [hd]))
      unfold utf8Len at this ⊢
      simp only [List.map_cons, List.sum_cons, List.length_cons, hc]
      omega
  have hblank : (s.isEmpty || s.all (fun c => c == ' ' || c == '\t')) = true ↔ ¬ ∃ c ∈ s, c ≠ ' ' ∧ c ≠ '\t' := by
    constructor
    · intro h
      rintro ⟨c, hc, h1, h2⟩
      simp only [Bool.or_eq_true, List.isEmpty_iff, List.all_eq_true, beq_iff_eq] at h
      rcases h with rfl | h
      · cases hc
      · rcases h c hc with h | h
        · exact h1 h
        · exact h2 h
    · intro h
      simp only [Bool.or_eq_true, List.isEmpty_iff, List.all_eq_true, beq_iff_eq]
      refine .inr (fun c hc => ?_)
      by_cases h1 : c = ' '
      · exact .inl h1
      · by_cases h2 : c = '\t'
        · exact .inr h2
        · exact absurd ⟨c, hc, h1, h2⟩ h
  have key : valid s = true ↔ (∃ c ∈ s, c ≠ ' ' ∧ c ≠ '\t') ∧ s.length ≤ 256 ∧ ∀ c ∈ s, c = '\t' ∨ (32 ≤ c.toNat ∧ c.toNat ≤ 126) := by
    have hM : MAX_SUBJECT_LENGTH = 256 := rfl
    unfold valid
    by_cases hb : (s.isEmpty || s.all (fun c => c == ' ' || c == '\t')) = true
    · rw [if_pos hb]
      exact ⟨fun h => (by cases h), fun h => absurd h.1 (hblank.mp hb)⟩
    · rw [if_neg hb]
      have hb' : ∃ c ∈ s, c ≠ ' ' ∧ c ≠ '\t' := Classical.byContradiction (fun h => hb (hblank.mpr h))
      by_cases hl : utf8Len s > MAX_SUBJECT_LENGTH
      · rw [if_pos hl]
        refine ⟨fun h => (by cases h), fun h => ?_⟩
        have := hlen s h.2.2
        omega
      · rw [if_neg hl]
        by_cases ha : s.all (fun c => c == '\t' || c == ' ' || isGraphic c) = true
        · have ha' : ∀ c ∈ s, c = '\t' ∨ (32 ≤ c.toNat ∧ c.toNat ≤ 126) := fun c hc => (hchar c).mp (List.all_eq_true.mp ha c hc)
          have hctl : (s.any (fun c => isControl c && c != '\t')) = false := by
            apply List.any_eq_false.mpr
            intro c hc
            rcases ha' c hc with rfl | h
            · decide
            · have : isControl c = false := by
                unfold isControl
                simp only [Bool.or_eq_false_iff, decide_eq_false_iff_not, Bool.and_eq_false_iff]
                omega
              rw [this]; simp
          rw [ha, hctl]
          have := hlen s ha'
          simp only [Bool.not_true, Bool.false_eq_true, if_false, true_iff]
          exact ⟨hb', by omega, ha'⟩
        · rw [Bool.not_eq_true] at ha
          rw [ha]
          simp only [Bool.not_false, if_true, Bool.false_eq_true, false_iff]
          intro h
          have : s.all (fun c => c == '\t' || c == ' ' || isGraphic c) = true :=
            List.all_eq_true.mpr (fun c hc => (hchar c).mpr (h.2.2 c hc))
          rw [this] at ha; cases ha
  unfold parse
  rw [← key]
  cases valid s <;> simp [eq_comm]

example : parse "Need more boxes".toList = some "Need more boxes".toList := by decide +kernel

/-- **C148** fails: RFC 3261 allows UTF-8 text in a Subject, and it is refused. -/
theorem C148_utf8 : parse "Grüße".toList = none := by decide +kernel

end Siphon.Subject
