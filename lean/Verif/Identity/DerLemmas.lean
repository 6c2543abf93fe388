import Verif.Identity.Spec
import Verif.Identity.B64Lemmas
/-!
# The DER form of a signature (C110)
-/
namespace Siphon.Ident
open Spec

/-- The number that bytes spell. -/
def beVal (bs : Bytes) : Nat := bs.foldl (fun a b => a * 256 + b.toNat) 0

theorem beVal_snoc (bs : Bytes) (b : UInt8) : beVal (bs ++ [b]) = beVal bs * 256 + b.toNat := by
  simp [beVal, List.foldl_append]

theorem bigEndian_iff (bs : Bytes) (n : Nat) : BigEndian bs n ↔ beVal bs = n := by
  constructor
  · intro h
    induction h with
    | nil => rfl
    | snoc _ ih => rw [beVal_snoc, ih]
  · rintro rfl
    suffices H : ∀ (k : Nat) (bs : Bytes), bs.length = k → BigEndian bs (beVal bs) from H _ bs rfl
    intro k
    induction k with
    | zero =>
      intro bs hl
      have : bs = [] := List.length_eq_zero_iff.1 hl
      subst this; exact .nil
    | succ k ih =>
      intro bs hl
      have hne : bs ≠ [] := by rintro rfl; simp at hl
      have e := List.dropLast_concat_getLast hne
      have := BigEndian.snoc (b := bs.getLast hne) (ih bs.dropLast (by simp; omega))
      rw [← beVal_snoc, e] at this
      exact this

theorem foldl_val : ∀ (bs : Bytes) (a : Nat), bs.foldl (fun a b => a * 256 + b.toNat) a = a * 256 ^ bs.length + beVal bs
  | [], a => by simp [beVal]
  | b :: bs, a => by
    unfold beVal
    rw [List.foldl_cons, List.foldl_cons, foldl_val bs, foldl_val bs, List.length_cons, Nat.pow_succ]
    have : (a * 256 + b.toNat) * 256 ^ bs.length = a * (256 ^ bs.length * 256) + b.toNat * 256 ^ bs.length := by
      rw [Nat.add_mul, Nat.mul_assoc, Nat.mul_comm 256]
    simp only [Nat.zero_mul, Nat.zero_add]
    omega

theorem beVal_cons (b : UInt8) (bs : Bytes) : beVal (b :: bs) = b.toNat * 256 ^ bs.length + beVal bs := by
  have := foldl_val bs (0 * 256 + b.toNat)
  unfold beVal
  rw [List.foldl_cons, this]
  simp [beVal]

theorem beVal_lt : ∀ bs : Bytes, beVal bs < 256 ^ bs.length
  | [] => by simp [beVal]
  | b :: bs => by
    have ih := beVal_lt bs
    have := b.toNat_lt
    rw [beVal_cons, List.length_cons, Nat.pow_succ]
    have : b.toNat * 256 ^ bs.length ≤ 255 * 256 ^ bs.length := Nat.mul_le_mul_right _ (by omega)
    omega

theorem beVal_inj : ∀ (a b : Bytes), a.length = b.length → beVal a = beVal b → a = b
  | [], [], _, _ => rfl
  | [], _ :: _, h, _ => by simp at h
  | _ :: _, [], h, _ => by simp at h
  | x :: a, y :: b, hl, h => by
    have hl' : a.length = b.length := by simpa using hl
    rw [beVal_cons, beVal_cons, hl'] at h
    have h1 := beVal_lt a
    have h2 := beVal_lt b
    rw [hl'] at h1
    have e : x.toNat = y.toNat := by
      have d1 : (x.toNat * 256 ^ b.length + beVal a) / 256 ^ b.length = x.toNat := by
        rw [Nat.mul_comm, Nat.mul_add_div (by omega), Nat.div_eq_of_lt h1]; omega
      have d2 : (y.toNat * 256 ^ b.length + beVal b) / 256 ^ b.length = y.toNat := by
        rw [Nat.mul_comm, Nat.mul_add_div (by omega), Nat.div_eq_of_lt h2]; omega
      rw [← d1, h, d2]
    rw [e] at h
    have exy : x = y := UInt8.toNat_inj.1 e
    rw [exy, beVal_inj a b hl' (by omega)]

theorem dropZeros_spec : ∀ bs : Bytes, bs ≠ [] →
    ∃ b t, dropZeros bs = b :: t ∧ beVal (b :: t) = beVal bs ∧ t.length + 1 ≤ bs.length ∧ (b = 0 → t = [])
  | [], h => absurd rfl h
  | [b], _ => ⟨b, [], rfl, rfl, by simp, fun _ => rfl⟩
  | b :: c :: t, _ => by
    rw [dropZeros]
    · by_cases hb : b = 0
      · rw [if_pos hb]
        obtain ⟨b', t', h1, h2, h3, h4⟩ := dropZeros_spec (c :: t) (by simp)
        refine ⟨b', t', h1, ?_, by simp at h3 ⊢; omega, h4⟩
        rw [h2, beVal_cons b, hb]
        simp
      · rw [if_neg hb]
        exact ⟨b, c :: t, rfl, rfl, by simp, fun h => absurd h hb⟩
    · simp

theorem derInt_spec (bs : Bytes) (hne : bs ≠ []) (hl : bs.length < 127) : DerInteger (derInt bs) (beVal bs) := by
  obtain ⟨b, t, h1, h2, h3, h4⟩ := dropZeros_spec bs hne
  have hb := b.toNat_lt
  unfold derInt
  rw [h1]
  simp only
  split
  · rename_i hbit
    refine ⟨0, b :: t, rfl, by simp; omega, ?_, by decide, ?_⟩
    · rw [bigEndian_iff, beVal_cons, h2]; simp
    · intro _ c hc
      simp only [List.head?_cons, Option.some.injEq] at hc
      subst hc
      omega
  · rename_i hbit
    refine ⟨b, t, rfl, by omega, by rw [bigEndian_iff, h2], by omega, ?_⟩
    intro h0 c hc
    rw [h4 h0] at hc; cases hc

theorem derInt_length (bs : Bytes) (hne : bs ≠ []) : (derInt bs).length ≤ bs.length + 3 := by
  obtain ⟨b, t, h1, _, h3, _⟩ := dropZeros_spec bs hne
  unfold derInt
  rw [h1]
  simp only
  split <;> simp <;> omega

/-- The shortest form is at least this big. -/
theorem der_lower {b : UInt8} {bs : Bytes} (h0 : b = 0 → ∀ c, bs.head? = some c → 128 ≤ c.toNat) (hne : bs ≠ []) :
    128 * 256 ^ (bs.length - 1) ≤ beVal (b :: bs) := by
  obtain ⟨c, t, rfl⟩ := List.exists_cons_of_ne_nil hne
  rw [beVal_cons, beVal_cons, List.length_cons, Nat.add_sub_cancel, Nat.pow_succ]
  by_cases hb : b = 0
  · have hc := h0 hb c rfl
    have : 128 * 256 ^ t.length ≤ c.toNat * 256 ^ t.length := Nat.mul_le_mul_right _ hc
    omega
  · have : 1 ≤ b.toNat := by
      rcases Nat.eq_zero_or_pos b.toNat with h | h
      · exact absurd (UInt8.toNat_inj.1 (by rw [h]; rfl)) hb
      · exact h
    have : 1 * (256 ^ t.length * 256) ≤ b.toNat * (256 ^ t.length * 256) := Nat.mul_le_mul_right _ this
    omega

theorem der_upper {b : UInt8} {bs : Bytes} (h : b.toNat < 128) : beVal (b :: bs) < 128 * 256 ^ bs.length := by
  rw [beVal_cons]
  have h1 := beVal_lt bs
  have : b.toNat * 256 ^ bs.length ≤ 127 * 256 ^ bs.length := Nat.mul_le_mul_right _ (by omega)
  omega

theorem der_len {b b' : UInt8} {bs bs' : Bytes} (h : b.toNat < 128) (h0 : b' = 0 → ∀ c, bs'.head? = some c → 128 ≤ c.toNat)
    (e : beVal (b :: bs) = beVal (b' :: bs')) : bs'.length ≤ bs.length := by
  apply Nat.le_of_not_lt
  intro hlt
  have hne : bs' ≠ [] := by rintro rfl; simp at hlt
  have h1 := der_lower h0 hne
  have h2 := der_upper (bs := bs) h
  have h3 : 256 ^ bs.length ≤ 256 ^ (bs'.length - 1) := Nat.pow_le_pow_right (by decide) (by omega)
  omega

/-- A number has one DER form. -/
theorem der_unique {d d' : Bytes} {n : Nat} (h : DerInteger d n) (h' : DerInteger d' n) : d = d' := by
  obtain ⟨b, bs, rfl, h1, h2, h3, h4⟩ := h
  obtain ⟨b', bs', rfl, h1', h2', h3', h4'⟩ := h'
  rw [bigEndian_iff] at h2 h2'
  have e : beVal (b :: bs) = beVal (b' :: bs') := by rw [h2, h2']
  have l1 := der_len h3 h4' e
  have l2 := der_len h3' h4 e.symm
  have hl : (b :: bs).length = (b' :: bs').length := by simp; omega
  have := beVal_inj _ _ hl e
  cases this; rfl

theorem derPair_unique {d d' : Bytes} {r s : Nat} (h : DerPair d r s) (h' : DerPair d' r s) : d = d' := by
  obtain ⟨x, y, h1, h2, h3, _⟩ := h
  obtain ⟨x', y', h1', h2', h3', _⟩ := h'
  rw [h3, h3', der_unique h1 h1', der_unique h2 h2']

theorem joseToDer_spec (sig d : Bytes) :
    joseToDer sig = some d ↔ ∃ a b r s, sig = a ++ b ∧ a.length = 32 ∧ b.length = 32 ∧ BigEndian a r ∧ BigEndian b s ∧ DerPair d r s := by
  have key : ∀ a b : Bytes, a.length = 32 → b.length = 32 →
      DerPair (0x30 :: UInt8.ofNat (derInt a ++ derInt b).length :: (derInt a ++ derInt b)) (beVal a) (beVal b) := by
    intro a b ha hb
    have hna : a ≠ [] := by rintro rfl; simp at ha
    have hnb : b ≠ [] := by rintro rfl; simp at hb
    have := derInt_length a hna
    have := derInt_length b hnb
    exact ⟨derInt a, derInt b, derInt_spec a hna (by omega), derInt_spec b hnb (by omega), rfl, by simp; omega⟩
  constructor
  · intro h
    unfold joseToDer at h
    split at h
    · cases h
    · rename_i hl
      cases h
      have hl : sig.length = 64 := by omega
      have h1 : (sig.take 32).length = 32 := by simp; omega
      have h2 : (sig.drop 32).length = 32 := by simp; omega
      exact ⟨sig.take 32, sig.drop 32, _, _, by simp, h1, h2, (bigEndian_iff _ _).2 rfl, (bigEndian_iff _ _).2 rfl, key _ _ h1 h2⟩
  · rintro ⟨a, b, r, s, rfl, h1, h2, h3, h4, h5⟩
    rw [bigEndian_iff] at h3 h4
    subst h3; subst h4
    unfold joseToDer
    rw [if_neg (by simp; omega)]
    have e1 : (a ++ b).take 32 = a := by rw [List.take_append_of_le_length (by omega), List.take_of_length_le (by omega)]
    have e2 : (a ++ b).drop 32 = b := by rw [List.drop_append_of_le_length (by omega), List.drop_of_length_le (by omega)]; rfl
    simp only
    rw [e1, e2, derPair_unique h5 (key a b h1 h2)]

end Siphon.Ident
