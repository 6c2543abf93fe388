import Verif.Base.Percent
import Verif.Base.CharLemmas
set_option linter.unusedSimpArgs false
namespace Siphon

theorem ofNat_toNat (c : Char) : Char.ofNat c.toNat = c := Char.ofNat_toNat c

theorem toNat_valid (c : Char) : c.toNat.isValidChar := c.valid

theorem u8 (n : Nat) (h : n < 256) : (UInt8.ofNat n).toNat = n := by
  simp [Nat.mod_eq_of_lt h]

theorem acceptChar_self (c : Char) : acceptChar c.toNat (String.utf8EncodeChar c) = some c := by
  unfold acceptChar
  rw [ofNat_toNat, if_pos ⟨toNat_valid c, rfl⟩]

theorem cp2 (n : Nat) (h : n ≤ 2047) : codePoint [n / 64 % 32 + 192 - 192, n % 64 + 128 - 128] = n := by
  simp only [codePoint, List.foldl_cons, List.foldl_nil]; omega

theorem cp3 (n : Nat) (h : n ≤ 65535) :
    codePoint [n / 4096 % 16 + 224 - 224, n / 64 % 64 + 128 - 128, n % 64 + 128 - 128] = n := by
  simp only [codePoint, List.foldl_cons, List.foldl_nil]; omega

theorem cp4 (n : Nat) (h : n < 1114112) :
    codePoint [n / 262144 % 8 + 240 - 240, n / 4096 % 64 + 128 - 128, n / 64 % 64 + 128 - 128, n % 64 + 128 - 128] = n := by
  simp only [codePoint, List.foldl_cons, List.foldl_nil]; omega

theorem take1 (a : UInt8) (t : Bytes) (h : a.toNat < 128) : takeChar (a :: t) = some (Char.ofNat a.toNat, t) := by
  unfold takeChar
  exact if_pos h

theorem take2 (a b : UInt8) (t : Bytes) (c : Char) (h : ¬ a.toNat < 128) (h' : a.toNat < 224)
    (hc : acceptChar (codePoint [a.toNat - 192, b.toNat - 128]) [a, b] = some c) :
    takeChar (a :: b :: t) = some (c, t) := by
  unfold takeChar
  refine (if_neg h).trans ((if_pos h').trans ?_)
  show Option.map (fun x => (x, t)) (acceptChar _ _) = _
  rw [hc]; rfl

theorem take3 (a b c : UInt8) (t : Bytes) (ch : Char) (h : ¬ a.toNat < 128) (h' : ¬ a.toNat < 224) (h'' : a.toNat < 240)
    (hc : acceptChar (codePoint [a.toNat - 224, b.toNat - 128, c.toNat - 128]) [a, b, c] = some ch) :
    takeChar (a :: b :: c :: t) = some (ch, t) := by
  unfold takeChar
  refine (if_neg h).trans ((if_neg h').trans ((if_pos h'').trans ?_))
  show Option.map (fun x => (x, t)) (acceptChar _ _) = _
  rw [hc]; rfl

theorem take4 (a b c d : UInt8) (t : Bytes) (ch : Char) (h : ¬ a.toNat < 128) (h' : ¬ a.toNat < 224) (h'' : ¬ a.toNat < 240)
    (hc : acceptChar (codePoint [a.toNat - 240, b.toNat - 128, c.toNat - 128, d.toNat - 128]) [a, b, c, d] = some ch) :
    takeChar (a :: b :: c :: d :: t) = some (ch, t) := by
  unfold takeChar
  refine (if_neg h).trans ((if_neg h').trans ((if_neg h'').trans ?_))
  show Option.map (fun x => (x, t)) (acceptChar _ _) = _
  rw [hc]; rfl

theorem toNat_lt (c : Char) : c.toNat < 1114112 := by
  have := toNat_valid c
  unfold Nat.isValidChar at this
  omega

theorem takeChar_encode (c : Char) (t : Bytes) : takeChar (String.utf8EncodeChar c ++ t) = some (c, t) := by
  have hacc := acceptChar_self c
  have hlt := toNat_lt c
  have hn : c.val.toNat = c.toNat := rfl
  unfold String.utf8EncodeChar at hacc ⊢
  simp only [hn] at hacc ⊢
  by_cases h1 : c.toNat ≤ 127
  · simp only [h1, if_true] at hacc ⊢
    have e := u8 c.toNat (by omega)
    have := take1 (UInt8.ofNat c.toNat) t (by omega)
    rw [e, ofNat_toNat] at this
    exact this
  · by_cases h2 : c.toNat ≤ 2047
    · simp only [h1, h2, if_true, if_false] at hacc ⊢
      have e1 := u8 (c.toNat / 64 % 32 + 192) (by omega)
      have e2 := u8 (c.toNat % 64 + 128) (by omega)
      exact take2 _ _ t c (by omega) (by omega) (by rw [e1, e2, cp2 _ h2]; exact hacc)
    · by_cases h3 : c.toNat ≤ 65535
      · simp only [h1, h2, h3, if_true, if_false] at hacc ⊢
        have e1 := u8 (c.toNat / 4096 % 16 + 224) (by omega)
        have e2 := u8 (c.toNat / 64 % 64 + 128) (by omega)
        have e3 := u8 (c.toNat % 64 + 128) (by omega)
        exact take3 _ _ _ t c (by omega) (by omega) (by omega) (by rw [e1, e2, e3, cp3 _ h3]; exact hacc)
      · simp only [h1, h2, h3, if_true, if_false] at hacc ⊢
        have e1 := u8 (c.toNat / 262144 % 8 + 240) (by omega)
        have e2 := u8 (c.toNat / 4096 % 64 + 128) (by omega)
        have e3 := u8 (c.toNat / 64 % 64 + 128) (by omega)
        have e4 := u8 (c.toNat % 64 + 128) (by omega)
        exact take4 _ _ _ _ t c (by omega) (by omega) (by omega) (by rw [e1, e2, e3, e4, cp4 _ hlt]; exact hacc)

theorem decodeGo_encode (c : Char) (t : Bytes) (f : Nat) :
    utf8DecodeGo (f + 1) (String.utf8EncodeChar c ++ t) = (utf8DecodeGo f t).map (c :: ·) := by
  have h := takeChar_encode c t
  have hne : String.utf8EncodeChar c ++ t ≠ [] := by simp [String.utf8EncodeChar_ne_nil]
  generalize String.utf8EncodeChar c ++ t = bs at *
  cases bs with
  | nil => exact absurd rfl hne
  | cons a bs => simp only [utf8DecodeGo, h]

theorem decodeGo_utf8 : ∀ (s : Str) (f : Nat), (utf8 s).length ≤ f → utf8DecodeGo f (utf8 s) = some s
  | [], f, _ => by cases f <;> rfl
  | c :: t, f, h => by
    have e : utf8 (c :: t) = String.utf8EncodeChar c ++ utf8 t := by simp [utf8]
    have hpos : 0 < (String.utf8EncodeChar c).length := List.length_pos_iff.mpr String.utf8EncodeChar_ne_nil
    rw [e, List.length_append] at h
    cases f with
    | zero => omega
    | succ f => rw [e, decodeGo_encode, decodeGo_utf8 t f (by omega)]; rfl

/-- decoding undoes encoding -/
theorem utf8Decode_utf8 (s : Str) : utf8Decode (utf8 s) = some s := decodeGo_utf8 s _ (Nat.le_refl _)

/-- a byte 37 in an encoded character is the percent sign -/
theorem encode_percent (c : Char) (h : c ≠ '%') : ∀ b ∈ String.utf8EncodeChar c, b.toNat ≠ 37 := by
  have hne : c.toNat ≠ 37 := fun e => h (char_ext_toNat (by rw [e]; rfl))
  have hn : c.val.toNat = c.toNat := rfl
  unfold String.utf8EncodeChar
  simp only [hn]
  generalize c.toNat = n at *
  intro b hb
  split at hb
  · simp only [List.mem_cons, List.not_mem_nil, or_false] at hb
    rw [hb, u8 _ (by omega)]; exact hne
  · split at hb
    · simp only [List.mem_cons, List.not_mem_nil, or_false] at hb
      rcases hb with rfl | rfl <;> rw [u8 _ (by omega)] <;> omega
    · split at hb
      · simp only [List.mem_cons, List.not_mem_nil, or_false] at hb
        rcases hb with rfl | rfl | rfl <;> rw [u8 _ (by omega)] <;> omega
      · simp only [List.mem_cons, List.not_mem_nil, or_false] at hb
        rcases hb with rfl | rfl | rfl | rfl <;> rw [u8 _ (by omega)] <;> omega

theorem percentGo_id : ∀ (f : Nat) (bs : Bytes), bs.length ≤ f → (∀ b ∈ bs, b.toNat ≠ 37) → percentGo f bs = bs
  | 0, [], _, _ => rfl
  | 0, _ :: _, h, _ => by simp at h
  | _ + 1, [], _, _ => rfl
  | f + 1, a :: t, h, hb => by
    simp only [percentGo]
    rw [if_neg (hb a (by simp)), percentGo_id f t (by simpa using h) (fun b hm => hb b (by simp [hm]))]

/-- text without percent signs decodes to itself -/
theorem percentDecode_plain (s : Str) (h : '%' ∉ s) : percentDecode s = some s := by
  unfold percentDecode
  simp only
  rw [percentGo_id _ _ (Nat.le_refl _), utf8Decode_utf8]
  intro b hb
  simp only [utf8, List.mem_flatMap] at hb
  obtain ⟨c, hc, hb⟩ := hb
  exact encode_percent c (fun e => h (e ▸ hc)) b hb

end Siphon
