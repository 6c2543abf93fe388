import Verif.Identity.Spec
import Verif.Base.PercentLemmas
/-! Lemmas for C108 to C110: UTF-8 and base64url. -/
namespace Siphon.Ident
open Spec

/-! ## UTF-8 -/

theorem ofNat_small (n : Nat) (h : n < 256) : (Char.ofNat n).toNat = n := by
  have hv : n.isValidChar := .inl (by omega)
  unfold Char.ofNat
  rw [dif_pos hv]
  simp [Char.ofNatAux, Char.toNat, UInt32.toNat]

theorem accept_sound {n : Nat} {l r r' : Bytes} {c : Char} (h : (acceptChar n l).map (fun x => (x, r')) = some (c, r)) :
    l = String.utf8EncodeChar c ∧ r' = r := by
  rw [Option.map_eq_some_iff] at h
  obtain ⟨x, h1, h2⟩ := h
  rw [Prod.mk.injEq] at h2
  unfold acceptChar at h1
  split at h1
  · rename_i hc
    rw [Option.some.injEq] at h1
    rw [← h2.1, ← h1]
    exact ⟨hc.2.symm, h2.2⟩
  · exact absurd h1 (by simp)

theorem encode_small (a : UInt8) (h : a.toNat < 128) : String.utf8EncodeChar (Char.ofNat a.toNat) = [a] := by
  have hn : (Char.ofNat a.toNat).val.toNat = a.toNat := ofNat_small a.toNat (by omega)
  unfold String.utf8EncodeChar
  simp only [hn]
  rw [if_pos (by omega)]
  simp

theorem take2' (a b : UInt8) (t : Bytes) (h : ¬ a.toNat < 128) (h' : a.toNat < 224) :
    takeChar (a :: b :: t) = (acceptChar (codePoint [a.toNat - 192, b.toNat - 128]) [a, b]).map (fun x => (x, t)) := by
  unfold takeChar
  exact (if_neg h).trans (if_pos h')

theorem take3' (a b c : UInt8) (t : Bytes) (h : ¬ a.toNat < 128) (h' : ¬ a.toNat < 224) (h'' : a.toNat < 240) :
    takeChar (a :: b :: c :: t) =
      (acceptChar (codePoint [a.toNat - 224, b.toNat - 128, c.toNat - 128]) [a, b, c]).map (fun x => (x, t)) := by
  unfold takeChar
  exact (if_neg h).trans ((if_neg h').trans (if_pos h''))

theorem take4' (a b c d : UInt8) (t : Bytes) (h : ¬ a.toNat < 128) (h' : ¬ a.toNat < 224) (h'' : ¬ a.toNat < 240) :
    takeChar (a :: b :: c :: d :: t) =
      (acceptChar (codePoint [a.toNat - 240, b.toNat - 128, c.toNat - 128, d.toNat - 128]) [a, b, c, d]).map (fun x => (x, t)) := by
  unfold takeChar
  exact (if_neg h).trans ((if_neg h').trans (if_neg h''))

theorem take2n (a : UInt8) (h : ¬ a.toNat < 128) (h' : a.toNat < 224) : takeChar [a] = none := by
  unfold takeChar
  exact (if_neg h).trans (if_pos h')

theorem take3n (a : UInt8) (t : Bytes) (ht : t.length < 2) (h : ¬ a.toNat < 128) (h' : ¬ a.toNat < 224) (h'' : a.toNat < 240) :
    takeChar (a :: t) = none := by
  unfold takeChar
  refine (if_neg h).trans ((if_neg h').trans ((if_pos h'').trans ?_))
  match t, ht with
  | [], _ => rfl
  | [_], _ => rfl

theorem take4n (a : UInt8) (t : Bytes) (ht : t.length < 3) (h : ¬ a.toNat < 128) (h' : ¬ a.toNat < 224) (h'' : ¬ a.toNat < 240) :
    takeChar (a :: t) = none := by
  unfold takeChar
  refine (if_neg h).trans ((if_neg h').trans ((if_neg h'').trans ?_))
  match t, ht with
  | [], _ => rfl
  | [_], _ => rfl
  | [_, _], _ => rfl

theorem sound2 {a b : UInt8} {t : Bytes} {c : Char} {r : Bytes} (h1 : ¬ a.toNat < 128) (h2 : a.toNat < 224)
    (h : takeChar (a :: b :: t) = some (c, r)) : a :: b :: t = String.utf8EncodeChar c ++ r := by
  have h := (take2' a b t h1 h2).symm.trans h
  obtain ⟨e1, e2⟩ := accept_sound h
  rw [← e1, e2]; rfl

theorem sound3 {a b d : UInt8} {t : Bytes} {c : Char} {r : Bytes} (h1 : ¬ a.toNat < 128) (h2 : ¬ a.toNat < 224)
    (h3 : a.toNat < 240)
    (h : takeChar (a :: b :: d :: t) = some (c, r)) : a :: b :: d :: t = String.utf8EncodeChar c ++ r := by
  have h := (take3' a b d t h1 h2 h3).symm.trans h
  obtain ⟨e1, e2⟩ := accept_sound h
  rw [← e1, e2]; rfl

theorem sound4 {a b d e : UInt8} {t : Bytes} {c : Char} {r : Bytes} (h1 : ¬ a.toNat < 128) (h2 : ¬ a.toNat < 224)
    (h3 : ¬ a.toNat < 240)
    (h : takeChar (a :: b :: d :: e :: t) = some (c, r)) : a :: b :: d :: e :: t = String.utf8EncodeChar c ++ r := by
  have h := (take4' a b d e t h1 h2 h3).symm.trans h
  obtain ⟨e1, e2⟩ := accept_sound h
  rw [← e1, e2]; rfl

theorem takeChar_sound {bs : Bytes} {c : Char} {r : Bytes} (h : takeChar bs = some (c, r)) :
    bs = String.utf8EncodeChar c ++ r := by
  generalize hx : takeChar bs = x at h
  subst h
  rcases bs with _ | ⟨a, t⟩
  · exact absurd (show (none : Option (Char × Bytes)) = some (c, r) from hx) (by simp)
  by_cases h1 : a.toNat < 128
  · have h := (take1 a t h1).symm.trans hx
    rw [Option.some.injEq, Prod.mk.injEq] at h
    rw [← h.1, ← h.2, encode_small a h1]; rfl
  by_cases h2 : a.toNat < 224
  · rcases t with _ | ⟨b, t⟩
    · exact absurd ((take2n a h1 h2).symm.trans hx) (fun h => nomatch h)
    · exact sound2 h1 h2 hx
  by_cases h3 : a.toNat < 240
  · rcases t with _ | ⟨b, _ | ⟨d, t⟩⟩
    · exact absurd ((take3n a [] (by simp) h1 h2 h3).symm.trans hx) (fun h => nomatch h)
    · exact absurd ((take3n a [b] (by simp) h1 h2 h3).symm.trans hx) (fun h => nomatch h)
    · exact sound3 h1 h2 h3 hx
  · rcases t with _ | ⟨b, _ | ⟨d, _ | ⟨e, t⟩⟩⟩
    · exact absurd ((take4n a [] (by simp) h1 h2 h3).symm.trans hx) (fun h => nomatch h)
    · exact absurd ((take4n a [b] (by simp) h1 h2 h3).symm.trans hx) (fun h => nomatch h)
    · exact absurd ((take4n a [b, d] (by simp) h1 h2 h3).symm.trans hx) (fun h => nomatch h)
    · exact sound4 h1 h2 h3 hx

theorem utf8Decode_sound : ∀ (f : Nat) (bs : Bytes) (s : Str), utf8DecodeGo f bs = some s → bs = utf8 s
  | f, [], s, h => by
    have : s = [] := by cases f <;> simp [utf8DecodeGo] at h <;> exact h
    rw [this]; rfl
  | 0, _ :: _, _, h => by simp [utf8DecodeGo] at h
  | f + 1, a :: t, s, h => by
    simp only [utf8DecodeGo] at h
    split at h
    · rename_i c rest hc
      simp only [Option.map_eq_some_iff] at h
      obtain ⟨s', h1, rfl⟩ := h
      rw [takeChar_sound hc, utf8Decode_sound f rest s' h1]
      simp [utf8]
    · cases h

theorem utf8Decode_iff (bs : Bytes) (s : Str) : utf8Decode bs = some s ↔ bs = utf8 s :=
  ⟨utf8Decode_sound _ _ _, by rintro rfl; exact utf8Decode_utf8 s⟩

/-! ## base64url -/

theorem b64Val_char : ∀ n, n < 64 → b64Val (b64Char n) = some n := by decide +kernel

theorem letter_char : ∀ n, n < 64 → Letter (b64Char n) n := by
  intro n hn
  by_cases h1 : n < 26
  · have : b64Char n = Char.ofNat (65 + n) := by
      have : ∀ n, n < 26 → b64Char n = Char.ofNat (65 + n) := by decide +kernel
      exact this n h1
    rw [this]; exact .upper h1
  · by_cases h2 : n < 52
    · have : ∀ n, n < 26 → b64Char (26 + n) = Char.ofNat (97 + n) := by decide +kernel
      have h3 := this (n - 26) (by omega)
      have e : 26 + (n - 26) = n := by omega
      rw [e] at h3
      rw [h3]
      have := Letter.small (n := n - 26) (by omega)
      rwa [e] at this
    · by_cases h4 : n < 62
      · have : ∀ n, n < 10 → b64Char (52 + n) = Char.ofNat (48 + n) := by decide +kernel
        have h3 := this (n - 52) (by omega)
        have e : 52 + (n - 52) = n := by omega
        rw [e] at h3
        rw [h3]
        have := Letter.digit (n := n - 52) (by omega)
        rwa [e] at this
      · have : n = 62 ∨ n = 63 := by omega
        rcases this with rfl | rfl
        · exact .minus
        · exact .under

theorem letter_val {c : Char} {n : Nat} (h : Letter c n) : b64Val c = some n := by
  cases h with
  | upper h => have : ∀ m, m < 26 → b64Val (Char.ofNat (65 + m)) = some m := by decide +kernel
               exact this n h
  | small h => rename_i m; have : ∀ m, m < 26 → b64Val (Char.ofNat (97 + m)) = some (26 + m) := by decide +kernel
               exact this m h
  | digit h => rename_i m; have : ∀ m, m < 10 → b64Val (Char.ofNat (48 + m)) = some (52 + m) := by decide +kernel
               exact this m h
  | minus => decide +kernel
  | under => decide +kernel

theorem val_lt {c : Char} {n : Nat} (h : b64Val c = some n) : n < 64 ∧ b64Char n = c := by
  unfold b64Val at h
  rw [List.idxOf?_eq_some_iff] at h
  obtain ⟨h1, h2, _⟩ := h
  have hl : alphabet.length = 64 := by decide
  refine ⟨by omega, ?_⟩
  unfold b64Char
  rw [List.getElem?_eq_getElem h1]
  simpa using h2

theorem letter_iff (c : Char) (n : Nat) : Letter c n ↔ b64Val c = some n := by
  constructor
  · exact letter_val
  · intro h
    obtain ⟨h1, h2⟩ := val_lt h
    rw [← h2]; exact letter_char n h1

theorem u8_eq {n : Nat} (h : n < 256) : (UInt8.ofNat n).toNat = n := u8 n h

theorem u8_ext {a : UInt8} {n : Nat} (h : a.toNat = n) : UInt8.ofNat n = a := by
  subst h; simp

/-- Decoding accepts exactly the base64url forms. -/
theorem b64Decode_iff : ∀ (t : Str) (bs : Bytes), b64Decode t = some bs ↔ Base64 t bs
  | [], bs => by
    simp only [b64Decode]
    constructor
    · intro h; cases h; exact .nil
    · intro h; cases h; rfl
  | [_], bs => by
    simp only [b64Decode]
    constructor
    · intro h; cases h
    · intro h; cases h
  | [w, x], bs => by
    constructor
    · intro h
      simp only [b64Decode] at h
      split at h
      · rename_i p q hp hq
        split at h
        · rename_i hz
          cases h
          obtain ⟨lp, _⟩ := val_lt hp
          obtain ⟨lq, _⟩ := val_lt hq
          refine .one ((letter_iff _ _).2 hp) ((letter_iff _ _).2 hq) ?_
          rw [u8_eq (by omega)]; omega
        · cases h
      · cases h
    · intro h
      cases h with
      | @one w x p q a hp hq e =>
        have h1 := letter_val hp
        have h2 := letter_val hq
        obtain ⟨lp, _⟩ := val_lt h1
        obtain ⟨lq, _⟩ := val_lt h2
        simp only [b64Decode, h1, h2]
        have := a.toNat_lt
        rw [if_pos (by omega), u8_ext (by omega : a.toNat = p * 4 + q / 16)]
  | [w, x, y], bs => by
    constructor
    · intro h
      simp only [b64Decode] at h
      split at h
      · rename_i p q r hp hq hr
        split at h
        · rename_i hz
          cases h
          obtain ⟨lp, _⟩ := val_lt hp
          obtain ⟨lq, _⟩ := val_lt hq
          obtain ⟨lr, _⟩ := val_lt hr
          refine .two ((letter_iff _ _).2 hp) ((letter_iff _ _).2 hq) ((letter_iff _ _).2 hr) ?_
          rw [u8_eq (by omega), u8_eq (by omega)]; omega
        · cases h
      · cases h
    · intro h
      cases h with
      | @two w x y p q r a b hp hq hr e =>
        have h1 := letter_val hp
        have h2 := letter_val hq
        have h3 := letter_val hr
        obtain ⟨lp, _⟩ := val_lt h1
        obtain ⟨lq, _⟩ := val_lt h2
        obtain ⟨lr, _⟩ := val_lt h3
        simp only [b64Decode, h1, h2, h3]
        have := a.toNat_lt
        have := b.toNat_lt
        rw [if_pos (by omega), u8_ext (by omega : a.toNat = p * 4 + q / 16), u8_ext (by omega : b.toNat = q % 16 * 16 + r / 4)]
  | w :: x :: y :: z :: t, bs => by
    constructor
    · intro h
      simp only [b64Decode] at h
      split at h
      · rename_i p q r s hp hq hr hs
        simp only [Option.map_eq_some_iff] at h
        obtain ⟨bs', h1, rfl⟩ := h
        obtain ⟨lp, _⟩ := val_lt hp
        obtain ⟨lq, _⟩ := val_lt hq
        obtain ⟨lr, _⟩ := val_lt hr
        obtain ⟨ls, _⟩ := val_lt hs
        refine .three ((letter_iff _ _).2 hp) ((letter_iff _ _).2 hq) ((letter_iff _ _).2 hr) ((letter_iff _ _).2 hs) ?_
          ((b64Decode_iff t bs').1 h1)
        rw [u8_eq (by omega), u8_eq (by omega), u8_eq (by omega)]; omega
      · cases h
    · intro h
      cases h with
      | @three w x y z p q r s a b c t bs hp hq hr hs e ht =>
        have h1 := letter_val hp
        have h2 := letter_val hq
        have h3 := letter_val hr
        have h4 := letter_val hs
        obtain ⟨lp, _⟩ := val_lt h1
        obtain ⟨lq, _⟩ := val_lt h2
        obtain ⟨lr, _⟩ := val_lt h3
        obtain ⟨ls, _⟩ := val_lt h4
        simp only [b64Decode, h1, h2, h3, h4, (b64Decode_iff t bs).2 ht, Option.map_some]
        have := a.toNat_lt
        have := b.toNat_lt
        have := c.toNat_lt
        rw [u8_ext (by omega : a.toNat = p * 4 + q / 16), u8_ext (by omega : b.toNat = q % 16 * 16 + r / 4),
          u8_ext (by omega : c.toNat = r % 4 * 64 + s)]

/-- Encoding gives the base64url form. -/
theorem b64Encode_spec : ∀ bs : Bytes, Base64 (b64Encode bs) bs
  | [] => .nil
  | [a] => by
    have := a.toNat_lt
    exact .one (letter_char _ (by omega)) (letter_char _ (by omega)) (by omega)
  | [a, b] => by
    have := a.toNat_lt
    have := b.toNat_lt
    exact .two (letter_char _ (by omega)) (letter_char _ (by omega)) (letter_char _ (by omega)) (by omega)
  | a :: b :: c :: t => by
    have := a.toNat_lt
    have := b.toNat_lt
    have := c.toNat_lt
    exact .three (letter_char _ (by omega)) (letter_char _ (by omega)) (letter_char _ (by omega)) (letter_char _ (by omega)) (by omega)
      (b64Encode_spec t)

/-- No letter is a point, a semicolon or white space. -/
theorem letter_plain {c : Char} {n : Nat} (h : Letter c n) : c ≠ '.' ∧ c ≠ ';' ∧ isWs c = false ∧ c.toNat < 128 := by
  have h1 := letter_val h
  obtain ⟨h2, h3⟩ := val_lt h1
  have : ∀ n, n < 64 → b64Char n ≠ '.' ∧ b64Char n ≠ ';' ∧ isWs (b64Char n) = false ∧ (b64Char n).toNat < 128 := by decide +kernel
  rw [← h3]; exact this n h2

theorem base64_plain {t : Str} {bs : Bytes} (h : Base64 t bs) : ∀ c ∈ t, c ≠ '.' ∧ c ≠ ';' ∧ isWs c = false ∧ c.toNat < 128 := by
  induction h with
  | nil => intro c hc; simp at hc
  | three h1 h2 h3 h4 _ _ ih =>
    intro c hc
    simp only [List.mem_cons] at hc
    rcases hc with rfl | rfl | rfl | rfl | hc
    · exact letter_plain h1
    · exact letter_plain h2
    · exact letter_plain h3
    · exact letter_plain h4
    · exact ih c hc
  | two h1 h2 h3 =>
    intro c hc
    simp only [List.mem_cons, List.not_mem_nil, or_false] at hc
    rcases hc with rfl | rfl | rfl
    · exact letter_plain h1
    · exact letter_plain h2
    · exact letter_plain h3
  | one h1 h2 =>
    intro c hc
    simp only [List.mem_cons, List.not_mem_nil, or_false] at hc
    rcases hc with rfl | rfl
    · exact letter_plain h1
    · exact letter_plain h2

end Siphon.Ident
