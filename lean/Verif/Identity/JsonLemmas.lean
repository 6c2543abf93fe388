import Verif.Identity.B64Lemmas
/-!
# The JSON reader accepts exactly JSON (C109)
-/
namespace Siphon.Ident
open Spec
open TextSpec (DecDigits)

/-! ## Texts -/

theorem hex_of_val {c : Char} {n : Nat} (h : hexVal c = some n) : Hex c n ∧ n < 16 := by
  have hc : c = Char.ofNat c.toNat := by simp
  unfold hexVal at h
  split at h
  · rename_i hd
    have h1 : 48 ≤ c.toNat := hd.1
    have h2 : c.toNat ≤ 57 := hd.2
    cases h
    have e : c = Char.ofNat (48 + (c.toNat - 48)) := by
      rw [show 48 + (c.toNat - 48) = c.toNat by omega]; exact hc
    refine ⟨?_, by omega⟩
    have := Hex.digit (n := c.toNat - 48) (by omega)
    rwa [← e] at this
  · split at h
    · rename_i hd
      have h1 : 97 ≤ c.toNat := hd.1
      have h2 : c.toNat ≤ 102 := hd.2
      cases h
      have e : c = Char.ofNat (97 + (c.toNat - 97)) := by
        rw [show 97 + (c.toNat - 97) = c.toNat by omega]; exact hc
      refine ⟨?_, by omega⟩
      have := Hex.small (n := c.toNat - 97) (by omega)
      rwa [← e, show 10 + (c.toNat - 97) = c.toNat - 87 by omega] at this
    · split at h
      · rename_i hd
        have h1 : 65 ≤ c.toNat := hd.1
        have h2 : c.toNat ≤ 70 := hd.2
        cases h
        have e : c = Char.ofNat (65 + (c.toNat - 65)) := by
          rw [show 65 + (c.toNat - 65) = c.toNat by omega]; exact hc
        refine ⟨?_, by omega⟩
        have := Hex.upper (n := c.toNat - 65) (by omega)
        rwa [← e, show 10 + (c.toNat - 65) = c.toNat - 55 by omega] at this
      · cases h

theorem val_of_hex {c : Char} {n : Nat} (h : Hex c n) : hexVal c = some n := by
  cases h with
  | digit h =>
    have : ∀ m, m < 10 → hexVal (Char.ofNat (48 + m)) = some m := by decide +kernel
    exact this n h
  | small h =>
    rename_i m
    have : ∀ m, m < 6 → hexVal (Char.ofNat (97 + m)) = some (10 + m) := by decide +kernel
    exact this m h
  | upper h =>
    rename_i m
    have : ∀ m, m < 6 → hexVal (Char.ofNat (65 + m)) = some (10 + m) := by decide +kernel
    exact this m h

theorem hex_iff (c : Char) (n : Nat) : Hex c n ↔ hexVal c = some n := ⟨val_of_hex, fun h => (hex_of_val h).1⟩

theorem escape_iff (c : Char) (n : Nat) : Escape c n ↔ escaped c = some n := by
  constructor
  · intro h; cases h <;> decide
  · intro h
    unfold escaped at h
    repeat' split at h
    all_goals first | (cases h; subst_vars; constructor) | cases h

theorem escape_ne_u {e : Char} {b : Nat} (h : Escape e b) : e ≠ 'u' := by
  rintro rfl; cases h

theorem lex_plain (c : Char) (t : Str) (h1 : c ≠ '"') (h2 : c ≠ '\\') :
    lexStr (c :: t) = if c.toNat < 32 then none else (lexStr t).map (fun p => (.byte c.toNat :: p.1, p.2)) := by
  rw [lexStr]
  · simp [h2]
  · exact h1
  · intro a b d e t' h; exact absurd h h2
  · intro a t' h; exact absurd h h2

theorem lex_escape (e : Char) (t : Str) (h : e ≠ 'u') :
    lexStr ('\\' :: e :: t) = (match escaped e with
      | some b => (lexStr t).map (fun p => (.byte b :: p.1, p.2))
      | none => none) := by
  rw [lexStr]
  · cases escaped e <;> rfl
  · intro a b c d t' he
    exact absurd he h

theorem lex_u (a b c d : Char) (t : Str) :
    lexStr ('\\' :: 'u' :: a :: b :: c :: d :: t) = (match hexVal a, hexVal b, hexVal c, hexVal d with
    | some a, some b, some c, some d => (lexStr t).map (fun p => (.code (((a * 16 + b) * 16 + c) * 16 + d) :: p.1, p.2))
    | _, _, _, _ => none) := by
  rw [lexStr]
  cases hexVal a <;> cases hexVal b <;> cases hexVal c <;> cases hexVal d <;> rfl

theorem lex_u_short (t : Str) (h : t.length < 4) : lexStr ('\\' :: 'u' :: t) = none := by
  rw [lexStr]
  · rfl
  · intro a b c d t' he
    rintro rfl
    simp only [List.length_cons] at h
    omega

theorem lex_one : lexStr ['\\'] = none := by
  rw [lexStr]
  · simp
  · simp
  · simp
  · simp

theorem lex_complete {t : Str} {us : List Item} (h : Inside t us) (r : Str) : lexStr (t ++ '"' :: r) = some (us, r) := by
  induction h with
  | nil => rw [List.nil_append, lexStr]
  | plain h1 h2 h3 _ ih =>
    rw [List.cons_append, lex_plain _ _ h1 h2, if_neg (by omega), ih]; rfl
  | escape h1 _ ih =>
    rw [List.cons_append, List.cons_append, lex_escape _ _ (escape_ne_u h1), (escape_iff _ _).1 h1, ih]; rfl
  | code h1 h2 h3 h4 _ ih =>
    simp only [List.cons_append]
    rw [lex_u, (hex_iff _ _).1 h1, (hex_iff _ _).1 h2, (hex_iff _ _).1 h3, (hex_iff _ _).1 h4, ih]
    simp only [Option.map_some]
    congr 3
    congr 1
    omega

theorem lex_sound : ∀ (n : Nat) (s : Str), s.length ≤ n → ∀ (us : List Item) (r : Str), lexStr s = some (us, r) →
    ∃ t, s = t ++ '"' :: r ∧ Inside t us := by
  intro n
  induction n with
  | zero =>
    intro s hs us r h
    rcases s with _ | ⟨c, s⟩
    · rw [lexStr] at h; cases h
    · simp at hs
  | succ n ih =>
    intro s hs us r h
    rcases s with _ | ⟨c, s⟩
    · rw [lexStr] at h; cases h
    · by_cases h1 : c = '"'
      · subst h1
        rw [lexStr] at h
        cases h
        exact ⟨[], rfl, .nil⟩
      · by_cases h2 : c = '\\'
        · subst h2
          rcases s with _ | ⟨e, s⟩
          · rw [lex_one] at h; cases h
          · by_cases h3 : e = 'u'
            · subst h3
              by_cases h4 : s.length < 4
              · rw [lex_u_short _ h4] at h; cases h
              · match s, h4 with
                | [], h4 => simp at h4
                | [_], h4 => simp at h4
                | [_, _], h4 => simp at h4
                | [_, _, _], h4 => simp at h4
                | a :: b :: c :: d :: s, _ =>
                  rw [lex_u] at h
                  split at h
                  · rename_i va vb vc vd ha hb hc hd
                    simp only [Option.map_eq_some_iff] at h
                    obtain ⟨⟨us', r'⟩, h5, h6⟩ := h
                    cases h6
                    obtain ⟨t, e1, e2⟩ := ih s (by simp at hs; omega) us' _ h5
                    refine ⟨'\\' :: 'u' :: a :: b :: c :: d :: t, by rw [e1]; rfl, ?_⟩
                    have := Inside.code ((hex_iff _ _).2 ha) ((hex_iff _ _).2 hb) ((hex_iff _ _).2 hc) ((hex_iff _ _).2 hd) e2
                    rwa [show va * 4096 + vb * 256 + vc * 16 + vd = ((va * 16 + vb) * 16 + vc) * 16 + vd by omega] at this
                  · cases h
            · rw [lex_escape _ _ h3] at h
              split at h
              · rename_i b hb
                simp only [Option.map_eq_some_iff] at h
                obtain ⟨⟨us', r'⟩, h5, h6⟩ := h
                cases h6
                obtain ⟨t, e1, e2⟩ := ih s (by simp at hs; omega) us' _ h5
                exact ⟨'\\' :: e :: t, by rw [e1]; rfl, .escape ((escape_iff _ _).2 hb) e2⟩
              · cases h
        · rw [lex_plain _ _ h1 h2] at h
          split at h
          · cases h
          · simp only [Option.map_eq_some_iff] at h
            obtain ⟨⟨us', r'⟩, h5, h6⟩ := h
            cases h6
            obtain ⟨t, e1, e2⟩ := ih s (by simp at hs; omega) us' _ h5
            exact ⟨c :: t, by rw [e1]; rfl, .plain h1 h2 (by omega) e2⟩

/-- Reading a text accepts exactly what the grammar allows, up to the first quote that ends it. -/
theorem lex_iff (s : Str) (us : List Item) (r : Str) : lexStr s = some (us, r) ↔ ∃ t, s = t ++ '"' :: r ∧ Inside t us := by
  constructor
  · exact lex_sound s.length s (Nat.le_refl _) us r
  · rintro ⟨t, rfl, h⟩; exact lex_complete h r

/-! ## What texts mean -/

/-- The codes have at most four hexadecimal digits. -/
def Small (us : List Item) : Prop := ∀ n, Item.code n ∈ us → n < 65536

theorem inside_small {t : Str} {us : List Item} (h : Inside t us) : Small us := by
  induction h with
  | nil => intro n h; simp at h
  | plain _ _ _ _ ih => intro n h; simp at h; exact ih n h
  | escape _ _ ih => intro n h; simp at h; exact ih n h
  | code h1 h2 h3 h4 _ ih =>
    intro n h
    simp only [List.mem_cons, Item.code.injEq] at h
    have l1 := (hex_of_val (val_of_hex h1)).2
    have l2 := (hex_of_val (val_of_hex h2)).2
    have l3 := (hex_of_val (val_of_hex h3)).2
    have l4 := (hex_of_val (val_of_hex h4)).2
    rcases h with rfl | h
    · omega
    · exact ih n h

theorem ofNat_valid {n : Nat} (h : n.isValidChar) : (Char.ofNat n).toNat = n := by
  unfold Char.ofNat
  rw [dif_pos h]
  simp [Char.toNat, Char.ofNatAux]

theorem char_valid (c : Char) : c.toNat < 0xD800 ∨ (0xDFFF < c.toNat ∧ c.toNat < 0x110000) := c.valid

theorem utf8_single (c : Char) : utf8 [c] = String.utf8EncodeChar c := by simp [utf8]

theorem items_sound : ∀ (k : Nat) (us : List Item), us.length ≤ k → Small us → ∀ bs, itemBytes us = some bs → Spells us bs := by
  intro k
  induction k with
  | zero =>
    intro us hk _ bs h
    rcases us with _ | ⟨u, us⟩
    · rw [itemBytes] at h; cases h; exact .nil
    · simp at hk
  | succ k ih =>
    intro us hk hs bs h
    rcases us with _ | ⟨u, us⟩
    · rw [itemBytes] at h; cases h; exact .nil
    · have hs' : Small us := fun n hn => hs n (List.mem_cons_of_mem _ hn)
      have hk' : us.length ≤ k := by simp at hk; omega
      rcases u with b | n
      · rw [itemBytes] at h
        simp only [Option.map_eq_some_iff] at h
        obtain ⟨bs', h1, rfl⟩ := h
        exact .byte (ih us hk' hs' bs' h1)
      · have hn := hs n List.mem_cons_self
        unfold itemBytes at h
        split at h
        · rename_i hhi
          split at h
          · rename_i m us' 
            split at h
            · rename_i hlo
              simp only [Option.map_eq_some_iff] at h
              obtain ⟨bs', h1, rfl⟩ := h
              rw [← utf8_single]
              refine .pair hhi.1 (by omega) hlo.1 (by omega) (ofNat_valid (Or.inr ⟨by omega, by omega⟩)) ?_
              exact ih us' (by simp at hk'; omega) (fun n hn => hs' n (List.mem_cons_of_mem _ hn)) bs' h1
            · cases h
          · cases h
        · split at h
          · cases h
          · simp only [Option.map_eq_some_iff] at h
            obtain ⟨bs', h1, rfl⟩ := h
            have hv : n.isValidChar := by
              rcases Nat.lt_or_ge n 0xD800 with h' | h'
              · exact Or.inl h'
              · exact Or.inr ⟨by omega, by omega⟩
            have e := ofNat_valid hv
            have := Spells.char (c := Char.ofNat n) (by omega) (ih us hk' hs' bs' h1)
            rw [e] at this
            rw [← utf8_single]; exact this

theorem items_complete {us : List Item} {bs : Bytes} (h : Spells us bs) : itemBytes us = some bs := by
  induction h with
  | nil => rw [itemBytes]
  | byte _ ih => rw [itemBytes, ih]; rfl
  | @char c us bs hc _ ih =>
    have := char_valid c
    unfold itemBytes
    rw [if_neg (by omega), if_neg (by omega), ih, utf8_single]
    simp
  | @pair c hi lo us bs h1 h2 h3 h4 h5 _ ih =>
    unfold itemBytes
    rw [if_pos (by omega)]
    show (if _ then _ else _) = _
    rw [if_pos (by omega), ih, ← h5, utf8_single]
    simp

theorem means_itemText {us : List Item} (h : Small us) : Means us (itemText us) := by
  unfold itemText
  cases hb : itemBytes us with
  | none =>
    intro s hs
    rw [items_complete hs] at hb; cases hb
  | some bs =>
    have h1 := items_sound us.length us (Nat.le_refl _) h bs hb
    show Means us (utf8Decode bs)
    cases hd : utf8Decode bs with
    | none =>
      intro s hs
      rw [items_complete hs] at hb
      cases hb
      rw [utf8Decode_utf8] at hd; cases hd
    | some s =>
      rw [utf8Decode_iff] at hd
      subst hd; exact h1

theorem means_eq {us : List Item} {s : Option Str} (hs : Small us) (h : Means us s) : itemText us = s := by
  cases s with
  | some s => unfold itemText; rw [items_complete h]; exact utf8Decode_utf8 s
  | none =>
    cases hd : itemText us with
    | none => rfl
    | some s =>
      have := means_itemText hs
      rw [hd] at this
      exact absurd this (h s)

/-! ## White space -/

theorem ws_iff (c : Char) : isJsonWs c = true ↔ c = ' ' ∨ c = '\t' ∨ c = '\n' ∨ c = '\r' := by
  simp [isJsonWs, or_assoc]

/-- Does not begin with white space. -/
def NoWs (s : Str) : Prop := ∀ c, s.head? = some c → isJsonWs c = false

theorem skip_split (s : Str) : ∃ w, Ws w ∧ s = w ++ skipWs s := by
  refine ⟨s.takeWhile isJsonWs, ?_, by rw [skipWs, List.takeWhile_append_dropWhile]⟩
  intro c hc
  have := List.all_takeWhile (p := isJsonWs) (l := s)
  rw [List.all_eq_true] at this
  exact (ws_iff c).1 (this c hc)

theorem skip_append {w s : Str} (hw : Ws w) (hs : NoWs s) : skipWs (w ++ s) = s := by
  unfold skipWs
  induction w with
  | nil =>
    cases s with
    | nil => rfl
    | cons c s => rw [List.nil_append, List.dropWhile_cons, hs c rfl]; rfl
  | cons c w ih =>
    rw [List.cons_append, List.dropWhile_cons, (ws_iff c).2 (hw c List.mem_cons_self)]
    exact ih (fun x hx => hw x (List.mem_cons_of_mem _ hx))

theorem skip_noWs (s : Str) : NoWs (skipWs s) := by
  intro c hc
  unfold skipWs at hc
  cases hd : s.dropWhile isJsonWs with
  | nil => rw [hd] at hc; cases hc
  | cons a t =>
    rw [hd] at hc; cases hc
    have := List.head?_dropWhile_not isJsonWs s
    rw [hd] at this
    simpa using this

/-! ## Numbers -/

theorem isDigit_iff (c : Char) : isDigit c = true ↔ Digit c := by
  unfold isDigit Digit
  rw [Bool.and_eq_true, decide_eq_true_iff, decide_eq_true_iff]
  exact Iff.rfl

theorem decDigits_of : ∀ (ds : Str), ds ≠ [] → (∀ c ∈ ds, Digit c) → DecDigits ds (digitsVal ds) := by
  suffices H : ∀ (n : Nat) (ds : Str), ds.length = n + 1 → (∀ c ∈ ds, Digit c) → DecDigits ds (digitsVal ds) by
    intro ds h1 h2
    rcases ds with _ | ⟨c, t⟩
    · exact absurd rfl h1
    · exact H t.length (c :: t) rfl h2
  intro n
  induction n with
  | zero =>
    intro ds h1 h2
    match ds, h1 with
    | [c], _ =>
      have := h2 c List.mem_cons_self
      have e : digitsVal [c] = c.toNat - 48 := by simp [digitsVal]
      rw [e]; exact .one this.1 this.2
  | succ n ih =>
    intro ds h1 h2
    have hne : ds ≠ [] := by rintro rfl; simp at h1
    have e := List.dropLast_concat_getLast hne
    have hl := h2 (ds.getLast hne) (List.getLast_mem hne)
    have h3 := ih ds.dropLast (by simp; omega) (fun c hc => h2 c (List.dropLast_subset _ hc))
    have h4 := DecDigits.snoc h3 hl.1 hl.2
    rw [e] at h4
    have e2 : digitsVal ds = digitsVal ds.dropLast * 10 + ((ds.getLast hne).toNat - 48) := by
      conv => lhs; rw [← e]
      simp [digitsVal, List.foldl_append]
    rw [e2]; exact h4

theorem digits_of_dec {ds : Str} {n : Nat} (h : DecDigits ds n) : ds ≠ [] ∧ (∀ c ∈ ds, Digit c) ∧ digitsVal ds = n := by
  induction h with
  | @one c h1 h2 => exact ⟨by simp, by intro c hc; simp at hc; subst hc; exact ⟨h1, h2⟩, by simp [digitsVal]⟩
  | @snoc s n c _ h1 h2 ih =>
    refine ⟨by simp, ?_, ?_⟩
    · intro x hx
      rcases List.mem_append.1 hx with hx | hx
      · exact ih.2.1 x hx
      · simp at hx; subst hx; exact ⟨h1, h2⟩
    · rw [← ih.2.2]; simp [digitsVal, List.foldl_append]

/-- Does not begin with a digit. -/
def NoDigit (s : Str) : Prop := ∀ c, s.head? = some c → isDigit c = false

theorem digits_sound {s ds r : Str} (h : digits s = some (ds, r)) : s = ds ++ r ∧ ds ≠ [] ∧ (∀ c ∈ ds, Digit c) ∧ NoDigit r := by
  unfold digits at h
  split at h
  · cases h
  · rename_i hne
    cases h
    refine ⟨by rw [List.takeWhile_append_dropWhile], by simpa [List.isEmpty_iff] using hne, ?_, ?_⟩
    · intro c hc
      have := List.all_takeWhile (p := isDigit) (l := s)
      rw [List.all_eq_true] at this
      exact (isDigit_iff c).1 (this c hc)
    · intro c hc
      cases hd : s.dropWhile isDigit with
      | nil => rw [hd] at hc; cases hc
      | cons a t =>
        rw [hd] at hc; cases hc
        have := List.head?_dropWhile_not isDigit s
        rw [hd] at this
        simpa using this

theorem digits_complete {ds r : Str} (h1 : ds ≠ []) (h2 : ∀ c ∈ ds, Digit c) (h3 : NoDigit r) : digits (ds ++ r) = some (ds, r) := by
  have h2' : ∀ c ∈ ds, isDigit c = true := fun c hc => (isDigit_iff c).2 (h2 c hc)
  have e1 : (ds ++ r).takeWhile isDigit = ds := by
    rw [List.takeWhile_append_of_pos h2']
    cases r with
    | nil => simp
    | cons a r => rw [List.takeWhile_cons, h3 a rfl]; simp
  have e2 : (ds ++ r).dropWhile isDigit = r := by
    rw [List.dropWhile_append_of_pos h2']
    cases r with
    | nil => rfl
    | cons a r => rw [List.dropWhile_cons, h3 a rfl]; rfl
  unfold digits
  rw [e1, e2, if_neg (by simpa [List.isEmpty_iff] using h1)]

theorem fraction_sound {s r : Str} {b : Bool} (h : readFraction s = some (b, r)) :
    ∃ fr, s = fr ++ r ∧ Fraction fr ∧ (b = true ↔ fr ≠ []) ∧ (NoDigit s → NoDigit r) := by
  unfold readFraction at h
  split at h
  · simp only [Option.map_eq_some_iff] at h
    obtain ⟨⟨ds, r'⟩, h1, h2⟩ := h
    cases h2
    obtain ⟨e, h3, h4, h5⟩ := digits_sound h1
    exact ⟨'.' :: ds, by rw [e]; rfl, Or.inr ⟨ds, rfl, h3, h4⟩, by simp, fun _ => h5⟩
  · cases h
    exact ⟨[], rfl, Or.inl rfl, by simp, id⟩

theorem exponent_sound {s r : Str} {b : Bool} (h : readExponent s = some (b, r)) :
    ∃ ex, s = ex ++ r ∧ Exponent ex ∧ (b = true ↔ ex ≠ []) := by
  unfold readExponent at h
  split at h
  · rename_i e t
    split at h
    · rename_i he
      split at h
      all_goals
        simp only [Option.map_eq_some_iff] at h
        obtain ⟨⟨ds, r'⟩, h1, h2⟩ := h
        cases h2
        obtain ⟨e', h3, h4, h5⟩ := digits_sound h1
      · exact ⟨e :: '+' :: ds, by rw [e']; rfl, Or.inr ⟨e, ['+'], ds, rfl, he, by simp, h3, h4⟩, by simp⟩
      · exact ⟨e :: '-' :: ds, by rw [e']; rfl, Or.inr ⟨e, ['-'], ds, rfl, he, by simp, h3, h4⟩, by simp⟩
      · exact ⟨e :: ds, by rw [e']; rfl, Or.inr ⟨e, [], ds, rfl, he, by simp, h3, h4⟩, by simp⟩
    · cases h
      exact ⟨[], rfl, Or.inl rfl, by simp⟩
  · cases h
    exact ⟨[], rfl, Or.inl rfl, by simp⟩

/-- What may follow a value. -/
def Stop (s : Str) : Prop := ∀ c, s.head? = some c → isJsonWs c = true ∨ c = ',' ∨ c = ']' ∨ c = '}'

theorem stop_plain {c : Char} (h : isJsonWs c = true ∨ c = ',' ∨ c = ']' ∨ c = '}') :
    isDigit c = false ∧ c ≠ '.' ∧ c ≠ 'e' ∧ c ≠ 'E' := by
  rw [ws_iff] at h
  rcases h with (rfl | rfl | rfl | rfl) | rfl | rfl | rfl <;> decide

theorem stop_digit {r : Str} (h : Stop r) : NoDigit r := fun c hc => (stop_plain (h c hc)).1

theorem exponent_complete {ex r : Str} (h : Exponent ex) (hr : Stop r) : readExponent (ex ++ r) = some (!ex.isEmpty, r) := by
  rcases h with rfl | ⟨e, sign, ds, rfl, he, hs, h1, h2⟩
  · cases r with
    | nil => rfl
    | cons c r =>
      have := stop_plain (hr c rfl)
      simp [readExponent, this.2.2.1, this.2.2.2]
  · have hd := digits_complete h1 h2 (stop_digit hr)
    have e1 : (e :: sign ++ ds) ++ r = e :: (sign ++ (ds ++ r)) := by simp
    rw [e1]
    unfold readExponent
    simp only [if_pos he]
    rcases hs with rfl | rfl | rfl
    · obtain ⟨d, ds', rfl⟩ := List.exists_cons_of_ne_nil h1
      have hdig := h2 d List.mem_cons_self
      have n1 : d ≠ '+' := by rintro rfl; exact absurd ((isDigit_iff _).2 hdig) (by decide)
      have n2 : d ≠ '-' := by rintro rfl; exact absurd ((isDigit_iff _).2 hdig) (by decide)
      rw [List.nil_append]
      split
      · rename_i heq; exact absurd (by simpa using heq : d = '+' ∧ _).1 n1
      · rename_i heq; exact absurd (by simpa using heq : d = '-' ∧ _).1 n2
      · rw [hd]; rfl
    · rw [List.cons_append, List.nil_append]; simp only; rw [hd]; rfl
    · rw [List.cons_append, List.nil_append]; simp only; rw [hd]; rfl

theorem exponent_head {ex r : Str} (h : Exponent ex) (hr : Stop r) : NoDigit (ex ++ r) ∧ (ex ++ r).head? ≠ some '.' := by
  rcases h with rfl | ⟨e, sign, ds, rfl, he, _⟩
  · refine ⟨stop_digit hr, ?_⟩
    intro h; exact (stop_plain (hr _ h)).2.1 rfl
  · constructor
    · intro c hc
      simp at hc; subst hc
      rcases he with rfl | rfl <;> decide
    · intro hc
      simp at hc; subst hc
      rcases he with he | he <;> exact absurd he (by decide)

theorem fraction_complete {fr s : Str} (h : Fraction fr) (h1 : NoDigit s) (h2 : s.head? ≠ some '.') :
    readFraction (fr ++ s) = some (!fr.isEmpty, s) ∧ NoDigit (fr ++ s) := by
  rcases h with rfl | ⟨ds, rfl, h3, h4⟩
  · refine ⟨?_, h1⟩
    rw [List.nil_append]
    unfold readFraction
    split
    · exact absurd rfl h2
    · rfl
  · refine ⟨?_, by intro c hc; simp at hc; subst hc; decide⟩
    rw [List.cons_append, readFraction, digits_complete h3 h4 h1]; rfl

/-- Reading after the sign. -/
def readUnsigned (neg : Bool) (s : Str) : Option (Json × Str) :=
  match digits s with
  | none => none
  | some (ds, r) =>
    if ds.head? = some '0' ∧ 1 < ds.length then none
    else
      match readFraction r with
      | none => none
      | some (fr, r) =>
        match readExponent r with
        | none => none
        | some (ex, r) =>
          if fr ∨ ex then some (.float, r)
          else if neg ∧ digitsVal ds = 0 then some (.float, r)
          else some (.int (if neg then - (digitsVal ds : Int) else digitsVal ds), r)

theorem readNumber_neg (s : Str) : readNumber ('-' :: s) = readUnsigned true s := rfl

theorem readNumber_pos (s : Str) (h : s.head? ≠ some '-') : readNumber s = readUnsigned false s := by
  unfold readNumber readUnsigned
  split
  rename_i neg s' heq
  split at heq
  · exact absurd rfl h
  · cases heq; rfl

theorem zero_iff {ds : Str} (h1 : ∀ c ∈ ds, Digit c) (h2 : ¬ (ds.head? = some '0' ∧ 1 < ds.length)) :
    ds.head? = some '0' → ds = ['0'] := by
  intro h
  rcases ds with _ | ⟨c, _ | ⟨d, t⟩⟩
  · cases h
  · cases h; rfl
  · exact absurd ⟨h, by simp⟩ h2

theorem digitsVal_zero {ds : Str} (hne : ds ≠ []) (h1 : ∀ c ∈ ds, Digit c) (h2 : ds.head? = some '0' → ds = ['0']) (h : digitsVal ds = 0) :
    ds = ['0'] := by
  apply h2
  obtain ⟨c, t, rfl⟩ := List.exists_cons_of_ne_nil hne
  have hge : ∀ (t : Str) (a : Nat), a ≤ t.foldl (fun a c => a * 10 + (c.toNat - 48)) a := by
    intro t
    induction t with
    | nil => intro a; exact Nat.le_refl _
    | cons x t ih => intro a; refine Nat.le_trans (m := a * 10 + (x.toNat - 48)) (by omega) (ih _)
  have h3 : c.toNat - 48 ≤ digitsVal (c :: t) := by
    have := hge t (0 * 10 + (c.toNat - 48))
    unfold digitsVal
    rw [List.foldl_cons]
    omega
  have h4 := h1 c List.mem_cons_self
  have h5 : c.toNat = 48 := by have := h4.1; omega
  have : c = Char.ofNat c.toNat := by simp
  rw [h5] at this
  rw [this]; rfl

theorem readUnsigned_sound {neg : Bool} {s r : Str} {v : Json} (h : readUnsigned neg s = some (v, r)) :
    ∃ t, s = t ++ r ∧ Number (if neg then '-' :: t else t) v := by
  unfold readUnsigned at h
  split at h
  · cases h
  · rename_i ds r1 hd
    obtain ⟨e1, hne, hdig, _⟩ := digits_sound hd
    split at h
    · cases h
    · rename_i hz
      have hz' := zero_iff hdig hz
      split at h
      · cases h
      · rename_i fr r2 hf
        obtain ⟨ft, e2, hfr, hfb, _⟩ := fraction_sound hf
        split at h
        · cases h
        · rename_i ex r3 he
          obtain ⟨et, e3, hex, heb⟩ := exponent_sound he
          have hdd := decDigits_of ds hne hdig
          split at h
          · rename_i hor
            cases h
            refine ⟨ds ++ ft ++ et, by rw [e1, e2, e3]; simp, ?_⟩
            have hor' : ft ≠ [] ∨ et ≠ [] := by
              rcases hor with h | h
              · exact Or.inl (hfb.1 h)
              · exact Or.inr (heb.1 h)
            cases neg
            · exact Number.float (sign := []) (Or.inl rfl) hdd hz' hfr hex hor'
            · have := Number.float (sign := ['-']) (Or.inr rfl) hdd hz' hfr hex hor'
              simpa using this
          · rename_i hor
            have hft : ft = [] := by
              rcases ft with _ | ⟨x, ft⟩
              · rfl
              · exact absurd (Or.inl (hfb.2 (by simp))) hor
            have het : et = [] := by
              rcases et with _ | ⟨x, et⟩
              · rfl
              · exact absurd (Or.inr (heb.2 (by simp))) hor
            subst hft; subst het
            have es : s = ds ++ r3 := by rw [e1, e2, e3]; simp
            split at h
            · rename_i hn
              cases h
              have hn1 : neg = true := hn.1
              have hd0 := digitsVal_zero hne hdig hz' hn.2
              refine ⟨ds, es, ?_⟩
              rw [hn1, hd0]; exact .negZero
            · rename_i hn
              cases h
              refine ⟨ds, es, ?_⟩
              cases neg
              · exact .int hdd hz'
              · exact .neg hdd (by have : ¬ digitsVal ds = 0 := fun h => hn ⟨rfl, h⟩; omega) hz'

theorem readNumber_sound {s r : Str} {v : Json} (h : readNumber s = some (v, r)) : ∃ t, s = t ++ r ∧ Number t v := by
  by_cases hm : s.head? = some '-'
  · rcases s with _ | ⟨c, s⟩
    · cases hm
    · cases hm
      rw [readNumber_neg] at h
      obtain ⟨t, e, hn⟩ := readUnsigned_sound h
      exact ⟨'-' :: t, by rw [e]; rfl, hn⟩
  · rw [readNumber_pos s hm] at h
    obtain ⟨t, e, hn⟩ := readUnsigned_sound h
    exact ⟨t, e, hn⟩

theorem readUnsigned_complete (neg : Bool) {ds fr ex r : Str} {n : Nat} (h1 : DecDigits ds n) (h2 : ds.head? = some '0' → ds = ['0'])
    (h3 : Fraction fr) (h4 : Exponent ex) (hr : Stop r) :
    readUnsigned neg (ds ++ fr ++ ex ++ r) =
      if fr ≠ [] ∨ ex ≠ [] then some (.float, r)
      else if neg ∧ n = 0 then some (.float, r)
      else some (.int (if neg then - (n : Int) else n), r) := by
  obtain ⟨hne, hdig, hv⟩ := digits_of_dec h1
  obtain ⟨x1, x2⟩ := exponent_head h4 hr
  obtain ⟨y1, y2⟩ := fraction_complete h3 x1 x2
  have e : ds ++ fr ++ ex ++ r = ds ++ (fr ++ (ex ++ r)) := by simp
  rw [e]
  unfold readUnsigned
  rw [digits_complete hne hdig y2]
  simp only
  rw [if_neg (by rintro ⟨h5, h6⟩; rw [h2 h5] at h6; simp at h6), y1]
  simp only
  rw [exponent_complete h4 hr]
  simp only [hv]
  have : ((!fr.isEmpty) = true ∨ (!ex.isEmpty) = true) ↔ (fr ≠ [] ∨ ex ≠ []) := by
    simp
  by_cases hc : fr ≠ [] ∨ ex ≠ []
  · rw [if_pos hc, if_pos (this.2 hc)]
  · rw [if_neg hc, if_neg (fun h => hc (this.1 h))]

/-- The first character of a number. -/
theorem number_head {t : Str} {v : Json} (h : Number t v) : ∃ c t', t = c :: t' ∧ (c = '-' ∨ Digit c) := by
  have key : ∀ {ds : Str} {n : Nat}, DecDigits ds n → ∃ c t', ds = c :: t' ∧ Digit c := by
    intro ds n h
    obtain ⟨hne, hd, _⟩ := digits_of_dec h
    obtain ⟨c, t', rfl⟩ := List.exists_cons_of_ne_nil hne
    exact ⟨c, t', rfl, hd c List.mem_cons_self⟩
  cases h with
  | int h _ => obtain ⟨c, t', e, h⟩ := key h; exact ⟨c, t', e, Or.inr h⟩
  | neg => exact ⟨'-', _, rfl, Or.inl rfl⟩
  | negZero => exact ⟨'-', _, rfl, Or.inl rfl⟩
  | float hs h =>
    obtain ⟨c, t', rfl, h'⟩ := key h
    rcases hs with rfl | rfl
    · exact ⟨c, _, rfl, Or.inr h'⟩
    · exact ⟨'-', _, rfl, Or.inl rfl⟩

theorem dec_not_minus {ds : Str} {n : Nat} (h : DecDigits ds n) (r : Str) : (ds ++ r).head? ≠ some '-' := by
  obtain ⟨hne, hd, _⟩ := digits_of_dec h
  obtain ⟨c, t', rfl⟩ := List.exists_cons_of_ne_nil hne
  intro he
  simp at he
  subst he
  exact absurd ((isDigit_iff _).2 (hd '-' List.mem_cons_self)) (by decide)

theorem readNumber_complete {t r : Str} {v : Json} (h : Number t v) (hr : Stop r) : readNumber (t ++ r) = some (v, r) := by
  have hf : Fraction [] := Or.inl rfl
  have he : Exponent [] := Or.inl rfl
  cases h with
  | int h1 h2 =>
    rw [readNumber_pos _ (dec_not_minus h1 r)]
    have := readUnsigned_complete false h1 h2 hf he hr
    simp only [List.append_nil] at this
    rw [this]; simp
  | @neg ds n h1 h2 h3 =>
    rw [List.cons_append, readNumber_neg]
    have := readUnsigned_complete true h1 h3 hf he hr
    simp only [List.append_nil] at this
    rw [this]
    have hn : ¬ n = 0 := by omega
    simp [hn]
  | negZero =>
    have h1 : DecDigits ['0'] 0 := DecDigits.one (c := '0') (by decide) (by decide)
    have := readUnsigned_complete true h1 (fun _ => rfl) hf he hr
    simp only [List.append_nil] at this
    show readNumber ('-' :: (['0'] ++ r)) = _
    rw [readNumber_neg, this]; simp
  | @float sign ds fr ex n hs h1 h2 h3 h4 h5 =>
    rcases hs with rfl | rfl
    · have := readUnsigned_complete false h1 h2 h3 h4 hr
      rw [List.nil_append]
      rw [readNumber_pos, this, if_pos h5]
      have := dec_not_minus h1 (fr ++ ex ++ r)
      simpa using this
    · have := readUnsigned_complete true h1 h2 h3 h4 hr
      show readNumber ('-' :: (ds ++ fr ++ ex ++ r)) = _
      rw [readNumber_neg, this, if_pos h5]

end Siphon.Ident
