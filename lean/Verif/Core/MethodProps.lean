import Verif.Core.Method
import Verif.Base.CharLemmas
/-!
# C26: method tokens
-/

namespace Siphon

theorem isMethodChar_iff (c : Char) : isMethodChar c = true ↔
    (97 ≤ c.toNat ∧ c.toNat ≤ 122) ∨ (65 ≤ c.toNat ∧ c.toNat ≤ 90) ∨ (48 ≤ c.toNat ∧ c.toNat ≤ 57)
    ∨ c.toNat = 33 ∨ c.toNat = 37 ∨ c.toNat = 39 ∨ c.toNat = 42 ∨ c.toNat = 43 ∨ c.toNat = 45 ∨
    c.toNat = 46 ∨ c.toNat = 94 ∨ c.toNat = 95 ∨ c.toNat = 96 ∨ c.toNat = 124 ∨ c.toNat = 126 := by
  simp [isMethodChar, isAlnum_iff, char_eq_iff, or_assoc]
theorem isMethodChar_toUpper (c : Char) : isMethodChar c.toUpper = isMethodChar c := by
  rw [Bool.eq_iff_iff, isMethodChar_iff, isMethodChar_iff, toUpper_toNat]
  split <;> omega

theorem isMethodChar_toLower (c : Char) : isMethodChar c.toLower = isMethodChar c := by
  rw [Bool.eq_iff_iff, isMethodChar_iff, isMethodChar_iff, toLower_toNat]
  split <;> omega

theorem isMethodChar_not_control (c : Char) (h : isMethodChar c = true) : isAsciiControl c = false := by
  rw [isMethodChar_iff] at h
  have : ¬ (isAsciiControl c = true) := by
    simp only [isAsciiControl, Bool.or_eq_true, decide_eq_true_eq, beq_iff_eq]
    omega
  simpa using this

theorem validate_ok_iff (t : Str) : validateMethodToken t = .ok () ↔
    t ≠ [] ∧ utf8Len t ≤ 32 ∧ ∀ c ∈ t, isMethodChar c = true := by
  unfold validateMethodToken MAX_METHOD_LENGTH
  constructor
  · intro h
    split at h
    · simp at h
    split at h
    · simp at h
    split at h
    · simp at h
    split at h
    · simp at h
    rename_i h1 h2 _ h4
    refine ⟨by simpa using h1, by omega, by simpa using h4⟩
  · rintro ⟨h1, h2, h3⟩
    rw [if_neg (by simpa using h1), if_neg (by omega), if_neg, if_neg]
    · simpa using h3
    · simp only [List.any_eq_true, not_exists, not_and]
      intro c hc
      simp [isMethodChar_not_control c (h3 c hc)]

theorem validate_lower_congr (a b : Str) (h : lower a = lower b) :
    (validateMethodToken a = .ok ()) ↔ (validateMethodToken b = .ok ()) := by
  have key : ∀ t : Str, validateMethodToken t = .ok () ↔ validateMethodToken (lower t) = .ok () := by
    intro t
    rw [validate_ok_iff, validate_ok_iff, utf8Len_lower]
    simp [lower, isMethodChar_toLower]
  rw [key a, key b, h]

/-- One unfolding of `from_token`: a known name, or a validated extension. -/
def knownMethods : List Method :=
  [.invite, .ack, .bye, .cancel, .register, .options, .info, .update, .message, .prack, .refer,
   .subscribe, .notify, .publish]

theorem fromToken_known (t : Str) (m : Method) (hm : m ∈ knownMethods)
    (h : lower t = lower m.asStr) : Method.fromToken t = .ok m := by
  simp only [knownMethods, List.mem_cons, List.not_mem_nil, or_false] at hm
  unfold Method.fromToken eqIgnoreCase
  rw [h]
  rcases hm with rfl | rfl | rfl | rfl | rfl | rfl | rfl | rfl | rfl | rfl | rfl | rfl | rfl | rfl <;>
    rfl

theorem fromToken_unknown (t : Str) (h : ∀ m ∈ knownMethods, lower t ≠ lower m.asStr) :
    Method.fromToken t = (match validateMethodToken t with
      | .error e => .error e
      | .ok () => .ok (.unknown (upper t))) := by
  have h0 : (lower t == lower "INVITE".toList) = false :=
    beq_eq_false_iff_ne.mpr (h .invite (by simp [knownMethods]))
  have h1 : (lower t == lower "ACK".toList) = false :=
    beq_eq_false_iff_ne.mpr (h .ack (by simp [knownMethods]))
  have h2 : (lower t == lower "BYE".toList) = false :=
    beq_eq_false_iff_ne.mpr (h .bye (by simp [knownMethods]))
  have h3 : (lower t == lower "CANCEL".toList) = false :=
    beq_eq_false_iff_ne.mpr (h .cancel (by simp [knownMethods]))
  have h4 : (lower t == lower "REGISTER".toList) = false :=
    beq_eq_false_iff_ne.mpr (h .register (by simp [knownMethods]))
  have h5 : (lower t == lower "OPTIONS".toList) = false :=
    beq_eq_false_iff_ne.mpr (h .options (by simp [knownMethods]))
  have h6 : (lower t == lower "INFO".toList) = false :=
    beq_eq_false_iff_ne.mpr (h .info (by simp [knownMethods]))
  have h7 : (lower t == lower "UPDATE".toList) = false :=
    beq_eq_false_iff_ne.mpr (h .update (by simp [knownMethods]))
  have h8 : (lower t == lower "MESSAGE".toList) = false :=
    beq_eq_false_iff_ne.mpr (h .message (by simp [knownMethods]))
  have h9 : (lower t == lower "PRACK".toList) = false :=
    beq_eq_false_iff_ne.mpr (h .prack (by simp [knownMethods]))
  have h10 : (lower t == lower "REFER".toList) = false :=
    beq_eq_false_iff_ne.mpr (h .refer (by simp [knownMethods]))
  have h11 : (lower t == lower "SUBSCRIBE".toList) = false :=
    beq_eq_false_iff_ne.mpr (h .subscribe (by simp [knownMethods]))
  have h12 : (lower t == lower "NOTIFY".toList) = false :=
    beq_eq_false_iff_ne.mpr (h .notify (by simp [knownMethods]))
  have h13 : (lower t == lower "PUBLISH".toList) = false :=
    beq_eq_false_iff_ne.mpr (h .publish (by simp [knownMethods]))
  unfold Method.fromToken eqIgnoreCase
  simp only [h0, h1, h2, h3, h4, h5, h6, h7, h8, h9, h10, h11, h12, h13, Bool.false_eq_true, if_false]
  rfl

theorem fromToken_cases (t : Str) (m : Method) (h : Method.fromToken t = .ok m) :
    (m ∈ knownMethods ∧ lower t = lower m.asStr) ∨
    (m = .unknown (upper t) ∧ validateMethodToken t = .ok () ∧
      ∀ m ∈ knownMethods, lower t ≠ lower m.asStr) := by
  by_cases hk : ∃ m ∈ knownMethods, lower t = lower m.asStr
  · obtain ⟨m', hm', hl⟩ := hk
    rw [fromToken_known t m' hm' hl] at h
    cases h
    exact Or.inl ⟨hm', hl⟩
  · have hk' : ∀ m ∈ knownMethods, lower t ≠ lower m.asStr := fun m hm hl => hk ⟨m, hm, hl⟩
    rw [fromToken_unknown t hk'] at h
    right
    split at h
    · cases h
    · rename_i hv
      cases h
      exact ⟨rfl, hv, hk'⟩

/-- **C26.** Printing a parsed method and parsing it again gives the same method. -/
theorem C26_roundtrip (t : Str) (m : Method) (h : Method.fromToken t = .ok m) :
    Method.fromToken m.asStr = .ok m := by
  rcases fromToken_cases t m h with ⟨hm, _⟩ | ⟨rfl, hv, hk⟩
  · exact fromToken_known _ m hm rfl
  · have hl : lower (upper t) = lower t := lower_upper t
    show Method.fromToken (upper t) = _
    rw [fromToken_unknown (upper t) (by rw [hl]; exact hk)]
    rw [(validate_lower_congr (upper t) t hl).mpr hv, upper_upper]

/-- **C26.** Parsing ignores ASCII case: tokens equal up to case give the same method, and are
accepted or rejected together. -/
theorem C26_case_insensitive (a b : Str) (h : lower a = lower b) (m : Method) :
    Method.fromToken a = .ok m ↔ Method.fromToken b = .ok m := by
  suffices ∀ a b : Str, lower a = lower b → Method.fromToken a = .ok m → Method.fromToken b = .ok m from
    ⟨this a b h, this b a h.symm⟩
  intro a b h ha
  rcases fromToken_cases a m ha with ⟨hm, hl⟩ | ⟨rfl, hv, hk⟩
  · exact fromToken_known b m hm (by rw [← h, hl])
  · rw [fromToken_unknown b (by rw [← h]; exact hk), (validate_lower_congr a b h).mp hv,
      upper_eq_of_lower_eq a b h]

/-- **C26.** Different parsed methods print differently. -/
theorem C26_injective (t t' : Str) (m m' : Method) (h : Method.fromToken t = .ok m)
    (h' : Method.fromToken t' = .ok m') (he : m.asStr = m'.asStr) : m = m' := by
  have h1 := C26_roundtrip t m h
  have h2 := C26_roundtrip t' m' h'
  rw [he, h2] at h1
  cases h1
  rfl

/-- **C26.** A parsed method prints as a non-empty token of at most 32 bytes: no control
character, space or separator can be injected through it. -/
theorem C26_token_safe (t : Str) (m : Method) (h : Method.fromToken t = .ok m) :
    m.asStr ≠ [] ∧ utf8Len m.asStr ≤ 32 ∧
    ∀ c ∈ m.asStr, (c.isAlphanum = true ∨ c ∈ "!%'*+-.^_`|~".toList) ∧ c ≠ '\r' ∧ c ≠ '\n' ∧ c ≠ ' ' := by
  have hchar : ∀ c, isMethodChar c = true →
      (c.isAlphanum = true ∨ c ∈ "!%'*+-.^_`|~".toList) ∧ c ≠ '\r' ∧ c ≠ '\n' ∧ c ≠ ' ' := by
    intro c hc
    rw [isMethodChar_iff] at hc
    have hn : c ≠ '\r' ∧ c ≠ '\n' ∧ c ≠ ' ' := by
      simp only [ne_eq, char_eq_iff]
      simp
      omega
    refine ⟨?_, hn⟩
    simp only [Char.isAlphanum, Char.isAlpha, Char.isUpper, Char.isLower, Char.isDigit,
      Bool.or_eq_true, Bool.and_eq_true, decide_eq_true_eq, UInt32.le_iff_toNat_le, ge_iff_le]
    simp [char_eq_iff]
    omega
  rcases fromToken_cases t m h with ⟨hm, _⟩ | ⟨rfl, hv, _⟩
  · simp only [knownMethods, List.mem_cons, List.not_mem_nil, or_false] at hm
    refine ⟨?_, ?_, fun c hc => hchar c ?_⟩
    · rcases hm with rfl | rfl | rfl | rfl | rfl | rfl | rfl | rfl | rfl | rfl | rfl | rfl | rfl | rfl <;>
        decide +kernel
    · rcases hm with rfl | rfl | rfl | rfl | rfl | rfl | rfl | rfl | rfl | rfl | rfl | rfl | rfl | rfl <;>
        decide +kernel
    · have : m.asStr.all isMethodChar = true := by
        rcases hm with rfl | rfl | rfl | rfl | rfl | rfl | rfl | rfl | rfl | rfl | rfl | rfl | rfl | rfl <;>
          decide +kernel
      exact List.all_eq_true.mp this c hc
  · have hv' := (validate_lower_congr (upper t) t (lower_upper t)).mpr hv
    rw [validate_ok_iff] at hv'
    exact ⟨hv'.1, hv'.2.1, fun c hc => hchar c (hv'.2.2 c hc)⟩

example : Method.fromToken "iNvItE".toList = .ok .invite := by decide +kernel
example : Method.fromToken "x-Foo!".toList = .ok (.unknown "X-FOO!".toList) := by decide +kernel
example : Method.fromToken "A B".toList = .error .invalidChars := by decide +kernel

end Siphon
