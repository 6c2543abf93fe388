import Verif.Parse.PropsWrite
import Verif.Transport.PropsFraming
/-!
# C93: messages written to a stream come back

What the serializers write is a frame for the stream transport, so a sequence of messages survives any way of cutting
the stream into reads.
-/
namespace Siphon.Parse

open Siphon.HdrSpec Siphon.TextSpec Spec
open Siphon.Transport (CR LF COLON White Stripped HasLine LengthField Numeral Declares HeaderBlock Message Layout LineEnds
  Delivers splitB lowerB)

set_option linter.unusedSimpArgs false

/-! ## ASCII bytes -/

theorem encode_ascii (c : Char) (b : UInt8) (hb : b.toNat < 128) (h : b ∈ String.utf8EncodeChar c) : c.toNat = b.toNat := by
  have key : ∀ k : Nat, k < 256 → b = UInt8.ofNat k → k = b.toNat := by
    intro k hk e
    have := congrArg UInt8.toNat e
    simp only [UInt8.toNat_ofNat'] at this
    omega
  have hv : c.toNat = c.val.toNat := rfl
  rw [hv]
  unfold String.utf8EncodeChar at h
  simp only at h
  split at h
  · simp only [List.mem_cons, List.not_mem_nil, or_false] at h
    exact key _ (by omega) h
  split at h
  · simp only [List.mem_cons, List.not_mem_nil, or_false] at h
    rcases h with h | h <;> · have := key _ (by omega) h; omega
  split at h
  · simp only [List.mem_cons, List.not_mem_nil, or_false] at h
    rcases h with h | h | h <;> · have := key _ (by omega) h; omega
  · simp only [List.mem_cons, List.not_mem_nil, or_false] at h
    rcases h with h | h | h | h <;> · have := key _ (by omega) h; omega

theorem encode_small (c : Char) (h : c.toNat < 128) : String.utf8EncodeChar c = [UInt8.ofNat c.toNat] := by
  have hv : c.toNat = c.val.toNat := rfl
  rw [hv] at h ⊢
  unfold String.utf8EncodeChar
  simp only
  rw [if_pos (by omega)]

theorem utf8_mem {s : Str} {b : UInt8} (hb : b.toNat < 128) (h : b ∈ utf8 s) : ∃ c ∈ s, c.toNat = b.toNat := by
  obtain ⟨c, hc, h2⟩ := List.mem_flatMap.1 h
  exact ⟨c, hc, encode_ascii c b hb h2⟩

theorem utf8_cons (c : Char) (s : Str) : utf8 (c :: s) = String.utf8EncodeChar c ++ utf8 s := rfl

theorem utf8_ascii_map {s : Str} (h : ∀ c ∈ s, c.toNat < 128) : utf8 s = s.map (fun c => UInt8.ofNat c.toNat) := by
  induction s with
  | nil => rfl
  | cons c s ih =>
    rw [utf8_cons, encode_small c (h c (by simp)), ih (fun x hx => h x (List.mem_cons_of_mem _ hx))]
    rfl

theorem lowerB_ofNat (k : Nat) (h : k < 128) : lowerB (UInt8.ofNat k) = UInt8.ofNat (if 65 ≤ k ∧ k ≤ 90 then k + 32 else k) := by
  have e : (UInt8.ofNat k).toNat = k := by simp only [UInt8.toNat_ofNat']; omega
  unfold lowerB
  have h1 : ((65 ≤ UInt8.ofNat k && UInt8.ofNat k ≤ 90) = true) ↔ (65 ≤ k ∧ k ≤ 90) := by
    simp only [Bool.and_eq_true, decide_eq_true_eq, UInt8.le_iff_toNat_le, e]
    rfl
  by_cases hk : 65 ≤ k ∧ k ≤ 90
  · rw [if_pos (h1.2 hk), if_pos hk]
    apply UInt8.toNat_inj.1
    rw [UInt8.toNat_add, e]
    simp only [UInt8.toNat_ofNat']
    have : (32 : UInt8).toNat = 32 := rfl
    rw [this]
  · rw [if_neg (fun e => hk (h1.1 e)), if_neg hk]

theorem utf8_lower {s : Str} (h : ∀ c ∈ s, c.toNat < 128) : (utf8 s).map lowerB = utf8 (lower s) := by
  have hl : ∀ c ∈ lower s, c.toNat < 128 := by
    intro c hc
    obtain ⟨x, hx, rfl⟩ := List.mem_map.1 hc
    have := h x hx
    rw [toLower_toNat]
    split <;> omega
  rw [utf8_ascii_map h, utf8_ascii_map hl]
  simp only [lower, List.map_map]
  refine List.map_congr_left (fun c hc => ?_)
  simp only [Function.comp]
  rw [lowerB_ofNat _ (h c hc), toLower_toNat]

theorem token_ascii {n : Str} (h : Token n) : ∀ c ∈ n, c.toNat < 128 := by
  intro c hc
  have := h.2 c hc
  rw [← isHeaderNameChar_iff] at this
  simp [isHeaderNameChar, isAlnum_iff, char_eq_iff] at this
  omega

theorem white_iff (b : UInt8) : White b ↔ b.toNat = 32 ∨ b.toNat = 9 ∨ b.toNat = 10 ∨ b.toNat = 12 ∨ b.toNat = 13 := by
  unfold White
  simp only [← UInt8.toNat_inj]
  rfl

/-- Bytes of a text without white space are not white space. -/
theorem utf8_not_white {s : Str} (h : ∀ c ∈ s, isWs c = false) : ∀ b ∈ utf8 s, ¬ White b := by
  intro b hb hw
  rw [white_iff] at hw
  obtain ⟨c, hc, e⟩ := utf8_mem (by omega) hb
  have hws := h c hc
  have : c = ' ' ∨ c = '\t' ∨ c = '\n' ∨ c = '\x0c' ∨ c = '\r' := by
    simp only [char_eq_iff]
    rw [e]
    exact hw
  rcases this with rfl | rfl | rfl | rfl | rfl <;> exact absurd hws (by decide)

theorem stripped_self {s v : Bytes} (h : ∀ b ∈ s, ¬ White b) (hs : Stripped s v) : v = s := by
  obtain ⟨a, b, e, ha, hb, _⟩ := hs
  have h1 : a = [] := by
    cases a with
    | nil => rfl
    | cons x a => exact absurd (ha x (by simp)) (h x (by rw [e]; simp))
  have h2 : b = [] := by
    cases b with
    | nil => rfl
    | cons x b => exact absurd (hb x (by simp)) (h x (by rw [e]; simp))
  rw [e, h1, h2]; simp

/-! ## Lines -/

theorem utf8_crlf : utf8 ['\r', '\n'] = [CR, LF] := by decide

theorem utf8_no_lf {s : Str} (h : '\n' ∉ s) : LF ∉ utf8 s := by
  intro hm
  obtain ⟨c, hc, e⟩ := utf8_mem (by decide) hm
  have : c = '\n' := by rw [char_eq_iff, e]; rfl
  exact h (this ▸ hc)

theorem utf8_no_colon {s : Str} (h : ':' ∉ s) : COLON ∉ utf8 s := by
  intro hm
  obtain ⟨c, hc, e⟩ := utf8_mem (by decide) hm
  have : c = ':' := by rw [char_eq_iff, e]; rfl
  exact h (this ▸ hc)

/-- The lines that framing sees are those of the text, with a CR at the end of all but the last. -/
theorem byte_lines : ∀ (ls : List Str), ls ≠ [] → (∀ l ∈ ls, '\n' ∉ l) → ∀ x,
    (HasLine (utf8 (joinLines ls)) x → ∃ l ∈ ls, x = utf8 l ∨ x = utf8 l ++ [CR])
  | [], h, _, _ => absurd rfl h
  | [l], _, hl, x => by
    intro hx
    rw [Transport.hasLine_iff] at hx
    simp only [joinLines] at hx
    rw [Transport.splitB_of_not_mem LF _ (utf8_no_lf (hl l (by simp)))] at hx
    exact ⟨l, by simp, .inl (by simpa using hx)⟩
  | l :: m :: ls, _, hl, x => by
    intro hx
    rw [Transport.hasLine_iff] at hx
    rw [joinLines_cons l (m :: ls) (by simp), utf8_append, utf8_append, utf8_crlf] at hx
    have e : utf8 l ++ [CR, LF] ++ utf8 (joinLines (m :: ls)) = (utf8 l ++ [CR]) ++ LF :: utf8 (joinLines (m :: ls)) := by simp
    rw [e, Transport.splitB_append] at hx
    · rcases List.mem_cons.1 hx with rfl | hx
      · exact ⟨l, by simp, .inr rfl⟩
      · obtain ⟨k, hk, e⟩ := byte_lines (m :: ls) (by simp) (fun x hx => hl x (List.mem_cons_of_mem _ hx)) x
          ((Transport.hasLine_iff _ _).2 hx)
        exact ⟨k, List.mem_cons_of_mem _ hk, e⟩
    · simp only [List.mem_append, not_or]
      exact ⟨utf8_no_lf (hl l (by simp)), by decide⟩

theorem last_line : ∀ (ls : List Str) (l : Str), (∀ x ∈ ls ++ [l], '\n' ∉ x) → HasLine (utf8 (joinLines (ls ++ [l]))) (utf8 l)
  | [], l, h => by
    rw [Transport.hasLine_iff]
    simp only [List.nil_append, joinLines]
    rw [Transport.splitB_of_not_mem LF _ (utf8_no_lf (h l (by simp)))]
    simp
  | a :: ls, l, h => by
    have ih := last_line ls l (fun x hx => h x (by simp at hx ⊢; exact .inr hx))
    rw [Transport.hasLine_iff] at ih ⊢
    rw [List.cons_append, joinLines_cons a (ls ++ [l]) (by simp), utf8_append, utf8_append, utf8_crlf]
    have e : utf8 a ++ [CR, LF] ++ utf8 (joinLines (ls ++ [l])) = (utf8 a ++ [CR]) ++ LF :: utf8 (joinLines (ls ++ [l])) := by simp
    rw [e, Transport.splitB_append]
    · exact List.mem_cons_of_mem _ ih
    · simp only [List.mem_append, not_or]
      exact ⟨utf8_no_lf (h a (by simp)), by decide⟩

theorem colon_unique {a b c d : Bytes} (h : a ++ COLON :: b = c ++ COLON :: d) (ha : COLON ∉ a) (hc : COLON ∉ c) : a = c ∧ b = d := by
  have h1 := (Transport.splitColon_iff (a ++ COLON :: b) a b).2 ⟨rfl, ha⟩
  rw [h] at h1
  rw [(Transport.splitColon_iff _ c d).2 ⟨rfl, hc⟩] at h1
  simp only [Option.some.injEq, Prod.mk.injEq] at h1
  exact ⟨h1.1.symm, h1.2.symm⟩

/-- A line with a space before a word before any colon is not a Content-Length line. -/
theorem not_length_start {p rest : Str} {c d : Char} (hp : ∀ x ∈ c :: p, x ≠ ':') (hc : isWs c = false) (hd : isWs d = false)
    (hd' : d ≠ ':') (hdn : d.toNat < 128) (x name name' value : Bytes)
    (hx : x = utf8 ((c :: p) ++ ' ' :: d :: rest) ∨ x = utf8 ((c :: p) ++ ' ' :: d :: rest) ++ [CR])
    (h1 : x = name ++ COLON :: value) (h3 : Stripped name name') : ¬ Transport.LengthName name' := by
  have hpb : COLON ∉ utf8 (c :: p) := utf8_no_colon (fun hm => hp _ hm rfl)
  have hform : ∃ t, x = (utf8 (c :: p) ++ [32, UInt8.ofNat d.toNat]) ++ t := by
    have e : utf8 ((c :: p) ++ ' ' :: d :: rest) = (utf8 (c :: p) ++ [32, UInt8.ofNat d.toNat]) ++ utf8 rest := by
      rw [utf8_append, utf8_cons ' ', utf8_cons d, encode_small d hdn, encode_small ' ' (by decide)]
      simp
    rcases hx with rfl | rfl
    · exact ⟨_, e⟩
    · exact ⟨utf8 rest ++ [CR], by rw [e]; simp⟩
  obtain ⟨t, ht⟩ := hform
  have hdb : UInt8.ofNat d.toNat ≠ COLON := by
    intro e
    have := congrArg UInt8.toNat e
    simp only [UInt8.toNat_ofNat'] at this
    have h58 : COLON.toNat = 58 := rfl
    rw [h58] at this
    exact hd' (by rw [char_eq_iff]; have : d.toNat = 58 := by omega
                  rw [this]; rfl)
  -- the name goes past the space and the word
  have hname : ∃ q, name = utf8 (c :: p) ++ [32, UInt8.ofNat d.toNat] ++ q := by
    rw [h1] at ht
    rcases List.append_eq_append_iff.1 ht with ⟨q, hq, _⟩ | ⟨q, hq, hr⟩
    · cases q with
      | nil => exact ⟨[], by rw [hq]; simp⟩
      | cons z q =>
        exfalso
        rename_i hr
        simp only [List.cons_append, List.cons.injEq] at hr
        have hz : COLON ∈ utf8 (c :: p) ++ [32, UInt8.ofNat d.toNat] := by rw [hq, hr.1]; simp
        rcases List.mem_append.1 hz with hz | hz
        · exact hpb hz
        · simp only [List.mem_cons, List.not_mem_nil, or_false] at hz
          rcases hz with hz | hz
          · exact absurd hz (by decide)
          · exact hdb hz.symm
    · exact ⟨q, hq⟩
  obtain ⟨q, hq⟩ := hname
  have hdw : ¬ White (UInt8.ofNat d.toNat) := by
    refine utf8_not_white (s := [d]) (by simpa using hd) _ ?_
    rw [utf8_cons, encode_small d hdn]
    simp
  have hcw : ∃ y r, utf8 (c :: p) = y :: r ∧ ¬ White y := by
    have hne : String.utf8EncodeChar c ≠ [] := String.utf8EncodeChar_ne_nil
    cases he : String.utf8EncodeChar c with
    | nil => exact absurd he hne
    | cons y r =>
      refine ⟨y, r ++ utf8 p, by rw [utf8_cons, he]; rfl, ?_⟩
      refine utf8_not_white (s := [c]) (by simpa using hc) y ?_
      rw [utf8_cons, he]
      simp
  obtain ⟨y, r, hy, hyw⟩ := hcw
  obtain ⟨a, b, e, ha, hb, _⟩ := h3
  have ha0 : a = [] := by
    cases a with
    | nil => rfl
    | cons z a =>
      rw [hq, hy] at e
      simp only [List.cons_append, List.cons.injEq] at e
      exact absurd (e.1 ▸ ha z (by simp)) hyw
  subst ha0
  have h32 : (32 : UInt8) ∈ name' := by
    rw [hq] at e
    rw [List.nil_append] at e
    have e' : (utf8 (c :: p) ++ [32]) ++ (UInt8.ofNat d.toNat :: q) = name' ++ b := by rw [← e]; simp
    rcases List.append_eq_append_iff.1 e' with ⟨k, hk, _⟩ | ⟨k, hk, hk2⟩
    · rw [hk]; simp
    · exfalso
      exact hdw (hb _ (by rw [hk2]; simp))
  intro hl
  rcases hl with hl | hl
  · have : lowerB 32 ∈ name'.map lowerB := List.mem_map.2 ⟨32, h32, rfl⟩
    rw [hl] at this
    exact absurd this (by decide)
  · have : lowerB 32 ∈ name'.map lowerB := List.mem_map.2 ⟨32, h32, rfl⟩
    rw [hl] at this
    exact absurd this (by decide)

/-- The name of a header line is a Content-Length name for framing exactly if it is one for the parser. -/
theorem length_header {n v : Str} (hn : Token n) (x name name' value : Bytes)
    (hx : x = utf8 (n ++ ": ".toList ++ v) ∨ x = utf8 (n ++ ": ".toList ++ v) ++ [CR])
    (h1 : x = name ++ COLON :: value) (h2 : COLON ∉ name) (h3 : Stripped name name') :
    (Transport.LengthName name' → isLengthName n = true) ∧ (value = 32 :: utf8 v ∨ value = 32 :: utf8 v ++ [CR]) := by
  have htc := token_chars hn
  have hcol : COLON ∉ utf8 n := utf8_no_colon (fun hm => (htc.2 _ hm).2.1 rfl)
  have e : utf8 (n ++ ": ".toList ++ v) = utf8 n ++ COLON :: 32 :: utf8 v := by
    rw [utf8_append, utf8_append]
    have : utf8 ": ".toList = [COLON, 32] := by decide
    rw [this]; simp
  have hsplit : name = utf8 n ∧ (value = 32 :: utf8 v ∨ value = 32 :: utf8 v ++ [CR]) := by
    rcases hx with hx | hx
    · rw [hx, e] at h1
      obtain ⟨a, b⟩ := colon_unique h1 hcol h2
      exact ⟨a.symm, .inl b.symm⟩
    · rw [hx, e] at h1
      have h1 : utf8 n ++ COLON :: (32 :: utf8 v ++ [CR]) = name ++ COLON :: value := by rw [← h1]; simp
      obtain ⟨a, b⟩ := colon_unique h1 hcol h2
      exact ⟨a.symm, .inr b.symm⟩
  refine ⟨?_, hsplit.2⟩
  intro hl
  rw [hsplit.1] at h3
  have := stripped_self (utf8_not_white (fun c hc => (htc.2 c hc).1)) h3
  subst this
  unfold Transport.LengthName at hl
  rw [utf8_lower (token_ascii hn)] at hl
  unfold isLengthName eqIgnoreCase
  rw [Bool.or_eq_true, beq_iff_eq, beq_iff_eq]
  rcases hl with hl | hl
  · left; exact utf8_inj (hl.trans (by decide))
  · right; exact utf8_inj (hl.trans (by decide))

theorem numeral_show (n : Nat) : Numeral (utf8 (showNat n)) n := by
  have hd : ∀ s k, DecDigits s k → Numeral (utf8 s) k := by
    intro s k h
    induction h with
    | @one c h1 h2 =>
      have e : (UInt8.ofNat c.toNat).toNat = c.toNat := by simp only [UInt8.toNat_ofNat']; omega
      rw [show utf8 [c] = String.utf8EncodeChar c from by simp [utf8], encode_small c (by omega)]
      refine ⟨by simp, ?_, ?_⟩
      · intro b hb; simp at hb; subst hb; rw [e]; exact ⟨h1, h2⟩
      · simp only [List.foldl_cons, List.foldl_nil, e]; omega
    | @snoc s k c _ h1 h2 ih =>
      have e : (UInt8.ofNat c.toNat).toNat = c.toNat := by simp only [UInt8.toNat_ofNat']; omega
      rw [utf8_append, show utf8 [c] = String.utf8EncodeChar c from by simp [utf8], encode_small c (by omega)]
      refine ⟨by simp, ?_, ?_⟩
      · intro b hb
        rcases List.mem_append.1 hb with hb | hb
        · exact ih.2.1 b hb
        · simp at hb; subst hb; rw [e]; exact ⟨h1, h2⟩
      · rw [List.foldl_append, ih.2.2]
        simp only [List.foldl_cons, List.foldl_nil, e]
  exact hd _ _ (decDigits_show n)

theorem digits_not_white (n : Nat) : ∀ b ∈ utf8 (showNat n), ¬ White b :=
  utf8_not_white (fun c hc => isDigit_not_ws c (showNat_digits n c hc))

/-- `v` is what stands in a Content-Length line of the number `n`. -/
theorem stripped_digits {n : Nat} {value v : Bytes} (h : value = 32 :: utf8 (showNat n) ∨ value = 32 :: utf8 (showNat n) ++ [CR])
    (hs : Stripped value v) : v = utf8 (showNat n) := by
  have hne : utf8 (showNat n) ≠ [] := utf8_ne (showNat_ne_nil n)
  have key : Stripped value (utf8 (showNat n)) := by
    have hw := digits_not_white n
    rcases h with rfl | rfl
    · exact ⟨[32], [], by simp, by simp [White], by simp, fun x hx => hw x (List.mem_of_mem_head? hx), fun x hx => hw x (List.mem_of_getLast? hx)⟩
    · exact ⟨[32], [CR], by simp, by simp [White], by simp [White, CR], fun x hx => hw x (List.mem_of_mem_head? hx), fun x hx => hw x (List.mem_of_getLast? hx)⟩
  rw [Transport.stripped_iff] at hs key
  rw [← hs, ← key]

/-- The lines declare the length of the body, if no other line is a Content-Length. -/
theorem declares (ls : List Str) (n : Nat) (hlf : ∀ l ∈ ls, '\n' ∉ l)
    (hno : ∀ l ∈ ls, ∀ x name name' value, (x = utf8 l ∨ x = utf8 l ++ [CR]) → x = name ++ COLON :: value → COLON ∉ name →
      Stripped name name' → ¬ Transport.LengthName name') :
    Declares (utf8 (joinLines (ls ++ ["Content-Length: ".toList ++ showNat n]))) n := by
  have hall : ∀ l ∈ ls ++ ["Content-Length: ".toList ++ showNat n], '\n' ∉ l := by
    intro l hl
    rcases List.mem_append.1 hl with hl | hl
    · exact hlf l hl
    · simp only [List.mem_cons, List.not_mem_nil, or_false] at hl
      subst hl
      exact (length_line_clean n).2.2
  have htok : Token "Content-Length".toList := (compact_token ('l', "Content-Length") (by decide)).1
  have hsplit : "Content-Length: ".toList ++ showNat n = "Content-Length".toList ++ ": ".toList ++ showNat n := rfl
  constructor
  · refine ⟨utf8 (showNat n), utf8 "Content-Length".toList, utf8 "Content-Length".toList, 32 :: utf8 (showNat n), ?_, ?_, ?_, ?_, ?_⟩
    · have := last_line ls ("Content-Length: ".toList ++ showNat n) hall
      have e : utf8 ("Content-Length: ".toList ++ showNat n) = utf8 "Content-Length".toList ++ COLON :: 32 :: utf8 (showNat n) := by
        rw [hsplit, utf8_append, utf8_append]
        have : utf8 ": ".toList = [COLON, 32] := by decide
        rw [this]; simp
      rwa [e] at this
    · decide
    · refine ⟨[], [], by simp, by simp, by simp, ?_, ?_⟩
      · intro x hx
        exact utf8_not_white (fun c hc => ((token_chars htok).2 c hc).1) x (List.mem_of_mem_head? hx)
      · intro x hx
        exact utf8_not_white (fun c hc => ((token_chars htok).2 c hc).1) x (List.mem_of_getLast? hx)
    · left; decide
    · have hw := digits_not_white n
      exact ⟨[32], [], by simp, by simp [White], by simp, fun x hx => hw x (List.mem_of_mem_head? hx), fun x hx => hw x (List.mem_of_getLast? hx)⟩
  · rintro v ⟨name, name', value, h1, h2, h3, h4, h5⟩
    obtain ⟨l, hl, hx⟩ := byte_lines _ (by simp) hall _ h1
    rcases List.mem_append.1 hl with hl | hl
    · exact absurd h4 (hno l hl _ name name' value hx rfl h2 h3)
    · simp only [List.mem_cons, List.not_mem_nil, or_false] at hl
      subst hl
      rw [hsplit] at hx
      have := (length_header htok _ name name' value hx rfl h2 h3).2
      rw [stripped_digits this h5]
      exact numeral_show n

/-! ## Written messages are frames -/

theorem uri_start {u : Str} (h : ∃ x, Uri.parse u = some x) (hw : ∀ c ∈ u, isWs c = false) :
    ∃ d rest, u = d :: rest ∧ d ≠ ':' ∧ d.toNat < 128 := by
  obtain ⟨x, h⟩ := h
  unfold Uri.parse at h
  split at h
  · cases h
  split at h
  · rename_i hp
    obtain ⟨t, rfl⟩ := List.isPrefixOf_iff_prefix.1 hp
    exact ⟨'t', "el:".toList ++ t, rfl, by decide, by decide⟩
  split at h
  · rename_i hp
    rw [Bool.or_eq_true] at hp
    rcases hp with hp | hp
    · obtain ⟨t, rfl⟩ := List.isPrefixOf_iff_prefix.1 hp
      exact ⟨'s', "ip:".toList ++ t, rfl, by decide, by decide⟩
    · obtain ⟨t, rfl⟩ := List.isPrefixOf_iff_prefix.1 hp
      exact ⟨'s', "ips:".toList ++ t, rfl, by decide, by decide⟩
  · obtain ⟨y, hy, rfl⟩ := Option.map_eq_some_iff.1 h
    unfold parseAbsolute at hy
    split at hy
    · cases hy
    split at hy
    · rename_i hv
      rw [trim_of_trimmed _ (trimmed_of_all _ hw)] at hv
      unfold validAbsolute at hv
      cases u with
      | nil => cases hv
      | cons c t =>
        simp only [Bool.and_eq_true] at hv
        have hc := hv.1
        simp only [isAlpha, Bool.or_eq_true, Bool.and_eq_true, decide_eq_true_eq, Char.le_def, UInt32.le_iff_toNat_le] at hc
        have hlt : c.toNat < 128 ∧ c.toNat ≠ 58 := by
          have : c.toNat = c.val.toNat := rfl
          rw [this]
          rcases hc with ⟨a, b⟩ | ⟨a, b⟩
          · have := (show 97 ≤ c.val.toNat from a); have := (show c.val.toNat ≤ 122 from b); omega
          · have := (show 65 ≤ c.val.toNat from a); have := (show c.val.toNat ≤ 90 from b); omega
        refine ⟨c, t, rfl, ?_, hlt.1⟩
        rintro rfl
        exact hlt.2 rfl
    · cases hy

/-- Clean lines with one Content-Length, the last, are the header block of a message. -/
theorem message_of_lines (ls : List Str) (n : Nat) (body : Bytes) (hb : body.length = n) (hmax : body.length ≤ 10485760)
    (first : Str) (c : Char) (t : Str) (hf : first = c :: t)
    (hcl : ∀ l ∈ (first :: ls) ++ ["Content-Length: ".toList ++ showNat n], l ≠ [] ∧ '\r' ∉ l ∧ '\n' ∉ l)
    (hno : ∀ l ∈ first :: ls, ∀ x name name' value, (x = utf8 l ∨ x = utf8 l ++ [CR]) → x = name ++ COLON :: value → COLON ∉ name →
      Stripped name name' → ¬ Transport.LengthName name') (max : Nat)
    (hlen : (utf8 (joinLines ((first :: ls) ++ ["Content-Length: ".toList ++ showNat n]))).length ≤ max) :
    Message max (utf8 (joinLines ((first :: ls) ++ ["Content-Length: ".toList ++ showNat n])) ++ Spec.blank ++ body) := by
  refine ⟨_, body, rfl, ⟨?_, ?_⟩, hlen, ?_, hmax⟩
  · have hne : String.utf8EncodeChar c ≠ [] := String.utf8EncodeChar_ne_nil
    have hc := (hcl first (by simp)).2
    rw [List.cons_append, joinLines_cons first _ (by simp), hf, utf8_append, utf8_append, utf8_cons]
    cases he : String.utf8EncodeChar c with
    | nil => exact absurd he hne
    | cons y r =>
      refine ⟨y, _, rfl, ?_, ?_⟩
      · rintro rfl
        have := encode_ascii c CR (by decide) (by rw [he]; simp)
        have : c = '\r' := by rw [char_eq_iff, this]; rfl
        exact hc.1 (by rw [hf, this]; simp)
      · rintro rfl
        have := encode_ascii c LF (by decide) (by rw [he]; simp)
        have : c = '\n' := by rw [char_eq_iff, this]; rfl
        exact hc.2 (by rw [hf, this]; simp)
  · intro a c h
    refine first_blank _ (by simp) (fun l hl => ⟨(hcl l hl).1, (hcl l hl).2.1⟩) [] a c ?_
    rw [List.append_nil]
    exact h
  · rw [hb]
    exact declares _ n (fun l hl => (hcl l (by simp only [List.mem_append]; exact .inl hl)).2.2) hno

/-- C93: a written request is a complete message for the stream framing, whenever what stands before its blank line has
at most `max` bytes. -/
theorem C93_request_frame (r : Siphon.Request) (h : BuiltRequest r) (hu : ∀ c ∈ r.uri, isWs c = false) (max : Nat)
    (hlen : (serializeRequest r).length ≤ max + 4 + r.body.length) : Message max (serializeRequest r) := by
  have hcl := (requestText_clean h).2
  have hm := token_chars (asStr_token h.method)
  rw [serializeRequest_eq] at hlen ⊢
  have hlen' : (utf8 (joinLines (requestText r))).length ≤ max := by
    simp only [List.length_append, show Spec.blank.length = 4 from rfl] at hlen
    omega
  obtain ⟨c, t, hct⟩ : ∃ c t, r.method.asStr = c :: t := by
    cases hq : r.method.asStr with
    | nil => exact absurd hq hm.1
    | cons c t => exact ⟨c, t, rfl⟩
  obtain ⟨d, rest, hd, hd1, hd2⟩ := uri_start h.uri hu
  have key := message_of_lines ((kept r.headers.inner).map reqLine ++
      (if r.headers.inner.any (·.nameEq "Max-Forwards".toList) then [] else ["Max-Forwards: 70".toList])) r.body.length r.body rfl h.body
      (r.method.asStr ++ " ".toList ++ r.uri ++ " SIP/2.0".toList) c (t ++ " ".toList ++ r.uri ++ " SIP/2.0".toList)
      (by rw [hct]; rfl) hcl ?_ max hlen'
  · exact key
  · intro l hl x name name' value hx h1 h2 h3
    rcases List.mem_cons.1 hl with rfl | hl
    · rw [hct] at hx
      rw [hd] at hx
      refine not_length_start (p := t) (c := c) (d := d) (rest := rest ++ " SIP/2.0".toList) ?_ ?_ ?_ hd1 hd2 x name name' value ?_ h1 h3
      · intro y hy; rw [← hct] at hy; exact (hm.2 y hy).2.1
      · exact (hm.2 c (by rw [hct]; simp)).1
      · exact hu d (by rw [hd]; simp)
      · have e : c :: t ++ " ".toList ++ d :: rest ++ " SIP/2.0".toList = (c :: t) ++ ' ' :: d :: (rest ++ " SIP/2.0".toList) := by
          have : " ".toList = [' '] := rfl
          rw [this, List.append_assoc, List.append_assoc]; rfl
        rw [e] at hx
        exact hx
    · rcases List.mem_append.1 hl with hl | hl
      · obtain ⟨hd, hmm, rfl⟩ := List.mem_map.1 hl
        have hs := h.headers hd (kept_mem hmm).1
        intro hln
        have := (length_header (canonicalName_token ⟨hs.1, hs.2.1⟩).1 x name name' value hx h1 h2 h3).1 hln
        rw [canonicalName_length, (kept_mem hmm).2] at this
        cases this
      · split at hl
        · cases hl
        · simp only [List.mem_cons, List.not_mem_nil, or_false] at hl
          subst hl
          intro hln
          have htok : Token "Max-Forwards".toList := by
            refine ⟨by decide, fun c hc => ?_⟩
            rw [← isHeaderNameChar_iff]
            revert c
            decide
          have := (length_header (n := "Max-Forwards".toList) (v := "70".toList) htok x name name' value hx h1 h2 h3).1 hln
          exact absurd this (by decide)

/-- C93: so is a written response. -/
theorem C93_response_frame (r : Siphon.Response) (h : BuiltResponse r) (max : Nat)
    (hlen : (serializeResponse r).length ≤ max + 4 + r.body.length) : Message max (serializeResponse r) := by
  have hcl := (responseText_clean h).2
  rw [serializeResponse_eq] at hlen ⊢
  have hlen' : (utf8 (joinLines (responseText r))).length ≤ max := by
    simp only [List.length_append, show Spec.blank.length = 4 from rfl] at hlen
    omega
  obtain ⟨d, rest, hd⟩ : ∃ c t, showNat r.code = c :: t := by
    cases hq : showNat r.code with
    | nil => exact absurd hq (showNat_ne_nil _)
    | cons c t => exact ⟨c, t, rfl⟩
  have hdd := showNat_digits r.code d (by rw [hd]; simp)
  have hdn := (isDigit_iff d).1 hdd
  have key := message_of_lines ((kept r.headers.inner).map respLine) r.body.length r.body rfl h.body
      ("SIP/2.0 ".toList ++ showNat r.code ++ " ".toList ++ r.reason) 'S' ("IP/2.0 ".toList ++ showNat r.code ++ " ".toList ++ r.reason)
      rfl hcl ?_ max hlen'
  · exact key
  · intro l hl x name name' value hx h1 h2 h3
    rcases List.mem_cons.1 hl with rfl | hl
    · rw [hd] at hx
      refine not_length_start (p := "IP/2.0".toList) (c := 'S') (d := d) (rest := rest ++ " ".toList ++ r.reason) (by decide) (by decide)
        (isDigit_not_ws d hdd) ?_ (by omega) x name name' value ?_ h1 h3
      · rintro rfl; exact absurd hdd (by decide)
      · exact hx
    · obtain ⟨hd, hmm, rfl⟩ := List.mem_map.1 hl
      have hs := h.headers hd (kept_mem hmm).1
      intro hln
      have := (length_header hs.1 x name name' value hx h1 h2 h3).1 hln
      rw [(kept_mem hmm).2] at this
      cases this

/-! ## The stream -/

/-- A message of either kind. -/
inductive Msg where
  | request (r : Siphon.Request)
  | response (r : Siphon.Response)

/-- What is written for it. -/
def Msg.bytes : Msg → Bytes
  | .request r => serializeRequest r
  | .response r => serializeResponse r

/-- It can be built with the API, the URI of a request has no white space, and at most 65 533 bytes stand before the
blank line. -/
def Msg.Sendable : Msg → Prop
  | .request r => BuiltRequest r ∧ (∀ c ∈ r.uri, isWs c = false) ∧ (serializeRequest r).length ≤ 65533 + 4 + r.body.length
  | .response r => BuiltResponse r ∧ (serializeResponse r).length ≤ 65533 + 4 + r.body.length

theorem layout_all : ∀ fs : List Bytes, Layout fs.flatten fs []
  | [] => Layout.done [] [] (by intro b hb; cases hb)
  | f :: fs => by
    have := Layout.cons [] f fs.flatten fs [] (by intro b hb; cases hb) (layout_all fs)
    simpa using this

/-- C93: messages of both kinds, written one after the other to a stream that is then cut into reads anywhere, are handed
on one by one and whole, in order, with nothing left over and the connection open. -/
theorem C93_stream (ms : List Msg) (h : ∀ m ∈ ms, m.Sendable) (cs : List Bytes) (hd : Delivers cs (ms.flatMap Msg.bytes)) :
    Transport.session cs = { buf := [], out := ms.map Msg.bytes, closed := none } := by
  refine Transport.C34_pipeline cs _ (ms.map Msg.bytes) hd (by rw [List.flatMap_def]; exact layout_all _) ?_
  intro f hf
  obtain ⟨m, hm, rfl⟩ := List.mem_map.1 hf
  have hs := h m hm
  cases m with
  | request r => exact C93_request_frame r hs.1 hs.2.1 _ hs.2.2
  | response r => exact C93_response_frame r hs.1 _ hs.2

/-- How a receiver reads a frame: as a request, or else as a response. -/
def readMsg (d : Bytes) : Option Msg :=
  match parseRequest d with
  | some r => some (.request r)
  | none => (parseResponse d).map .response

/-- C93: no bytes are both a request and a response. -/
theorem C93_kinds (d : Bytes) (max : Nat) (r : Siphon.Request) (r' : Siphon.Response) :
    ¬ (parseRequestWithLimit d max = some r ∧ parseResponse d = some r') := by
  rintro ⟨h1, h2⟩
  rw [C92_request] at h1
  rw [C92_response] at h2
  obtain ⟨f, rest, ⟨_, head, lines, ha, hb, _⟩, ⟨t, g, g', v, hl, hm, hg, _⟩, _⟩ := h1
  obtain ⟨f2, rest2, ⟨_, head2, lines2, ha2, hb2, _⟩, ⟨v2, g2, dd, g3, x, hl2, hv2, _⟩, _⟩ := h2
  rw [← headBody_iff] at ha ha2
  rw [ha] at ha2
  simp only [Option.some.injEq, Prod.mk.injEq] at ha2
  obtain ⟨rfl, rfl⟩ := ha2
  rw [lines_iff] at hb hb2
  rw [hb] at hb2
  simp only [List.cons.injEq] at hb2
  obtain ⟨rfl, rfl⟩ := hb2
  rw [strips_trim] at hl hl2
  rw [← hl2] at hl
  have htc := (names_chars hm).2
  have hslash : '/' ∉ t := by
    intro hm
    have := htc _ hm
    rw [← isHeaderNameChar_iff] at this
    exact absurd this (by decide)
  rw [sameName_iff, eqIgnoreCase, beq_iff_eq] at hv2
  have hv2s : '/' ∈ v2 := by
    have : '/' ∈ lower v2 := by rw [hv2]; decide
    obtain ⟨c, hc, e⟩ := List.mem_map.1 this
    have hn := congrArg Char.toNat e
    rw [toLower_toNat] at hn
    have : c = '/' := by
      rw [char_eq_iff]
      have h47 : ('/' : Char).toNat = 47 := rfl
      rw [h47] at hn ⊢
      split at hn <;> omega
    exact this ▸ hc
  have hv2g : ∀ c ∈ v2, c ≠ ' ' ∧ c ≠ '\t' := by
    intro c hc
    have h1 : c.toLower ∈ lower v2 := List.mem_map.2 ⟨c, hc, rfl⟩
    rw [hv2] at h1
    constructor <;> (rintro rfl; exact absurd h1 (by decide))
  have hgc : ∃ y k, g = y :: k ∧ (y = ' ' ∨ y = '\t') := by
    cases g with
    | nil => exact absurd rfl hg.1
    | cons y k => exact ⟨y, k, rfl, hg.2 y (by simp)⟩
  obtain ⟨y, k, rfl, hy⟩ := hgc
  simp only [List.append_assoc] at hl
  rcases List.append_eq_append_iff.1 hl with ⟨q, hq, hr⟩ | ⟨q, hq, hr⟩
  · cases q with
    | nil => simp at hq; exact hslash (hq ▸ hv2s)
    | cons z q =>
      simp only [List.cons_append, List.cons.injEq] at hr
      have := hv2g z (by rw [hq]; simp)
      rw [← hr.1] at this
      rcases hy with rfl | rfl
      · exact this.1 rfl
      · exact this.2 rfl
  · exact hslash (by rw [hq]; exact List.mem_append_left _ hv2s)

/-- What the receiver makes of the written message: it passes the checks on size, number of headers, singletons, branch and
CSeq, and its reason is not blank. -/
def Msg.Readable (m m' : Msg) : Prop :=
  match m, m' with
  | .request r, .request r' => NormalRequest r r' ∧ (serializeRequest r).length ≤ 65536 ∧ r'.headers.inner.length ≤ 200 ∧
      Single r'.headers.inner ∧ Branches r'.headers.inner ∧ CSeqs r'.headers.inner (fun w => SameName r'.method.asStr w)
  | .response r, .response r' => NormalResponse r r' ∧ r'.reason ≠ [] ∧ (serializeResponse r).length ≤ 65536 ∧
      r'.headers.inner.length ≤ 200 ∧ Single r'.headers.inner ∧ CSeqs r'.headers.inner (fun _ => True)
  | _, _ => False

/-- Message for message. -/
inductive AllReadable : List Msg → List Msg → Prop
  | nil : AllReadable [] []
  | cons {m m' ms ms'} : m.Readable m' → AllReadable ms ms' → AllReadable (m :: ms) (m' :: ms')

theorem readMsg_back (m m' : Msg) (h : m.Sendable) (hr : m.Readable m') : readMsg m.bytes = some m' := by
  cases m with
  | request r =>
    cases m' with
    | response _ => exact hr.elim
    | request r' =>
      have : parseRequest (serializeRequest r) = some r' := (C29_request r r' h.1 h.2.1 65536).2 hr
      simp only [readMsg, Msg.bytes, this]
  | response r =>
    cases m' with
    | request _ => exact hr.elim
    | response r' =>
      have h1 : parseResponse (serializeResponse r) = some r' := (C29_response r r' h.1).2 hr
      have h2 : parseRequest (serializeResponse r) = none := by
        cases hq : parseRequest (serializeResponse r) with
        | none => rfl
        | some x => exact absurd ⟨hq, h1⟩ (C93_kinds _ 65536 x r')
      simp only [readMsg, Msg.bytes, h1, h2, Option.map_some]

/-- C93: from end to end. A list of messages is written to a stream, the stream is cut into reads anywhere, the receiver
cuts it into frames and reads each one as a request or else as a response: it gets the normal forms of the messages, each
of its own kind, in order. -/
theorem C93_end_to_end (ms ms' : List Msg) (h : ∀ m ∈ ms, m.Sendable) (hr : AllReadable ms ms') (cs : List Bytes)
    (hd : Delivers cs (ms.flatMap Msg.bytes)) : (Transport.session cs).out.map readMsg = ms'.map some := by
  rw [C93_stream ms h cs hd]
  simp only
  clear hd
  induction hr with
  | nil => rfl
  | cons h1 _ ih =>
    simp only [List.map_cons, readMsg_back _ _ (h _ (by simp)) h1, ih (fun m hm => h m (List.mem_cons_of_mem _ hm))]

/-- a request and a response, cut inside a line end -/
def sampleResponse : Siphon.Response :=
  { code := 200, reason := "OK".toList, headers := ⟨[⟨"CSeq".toList, "1 INVITE".toList⟩]⟩, body := [104, 105] }

theorem sampleResponse_built : BuiltResponse sampleResponse := by
  refine ⟨by decide, by decide +kernel, ?_, by decide, by decide⟩
  have hd : ∀ h ∈ sampleResponse.headers.inner, Header.new h.name h.value = .ok h := by decide +kernel
  intro h hm
  exact ((header_new_ok_iff _ _ _).1 (hd h hm)).2

example : ∃ ms ms' : List Msg, ms = [.request sample, .response sampleResponse] ∧ (∀ m ∈ ms, m.Sendable) ∧
    AllReadable ms ms' ∧ ∀ n, 0 < n → n < (ms.flatMap Msg.bytes).length →
      (Transport.session [(ms.flatMap Msg.bytes).take n, (ms.flatMap Msg.bytes).drop n]).out.map readMsg = ms'.map some := by
  have h1 : (parseRequestWithLimit (serializeRequest sample) 65536).isSome = true := by decide +kernel
  have h2 : (parseResponse (serializeResponse sampleResponse)).isSome = true := by decide +kernel
  obtain ⟨r1, e1⟩ := Option.isSome_iff_exists.1 h1
  obtain ⟨r2, e2⟩ := Option.isSome_iff_exists.1 h2
  have hs : ∀ m ∈ [Msg.request sample, .response sampleResponse], m.Sendable := by
    intro m hm
    simp only [List.mem_cons, List.not_mem_nil, or_false] at hm
    rcases hm with rfl | rfl
    · exact ⟨sample_built, by decide +kernel, by decide +kernel⟩
    · exact ⟨sampleResponse_built, by decide +kernel⟩
  have hf : AllReadable [.request sample, .response sampleResponse] [.request r1, .response r2] :=
    .cons ((C29_request sample r1 sample_built (by decide +kernel) 65536).1 e1)
      (.cons ((C29_response sampleResponse r2 sampleResponse_built).1 e2) .nil)
  refine ⟨_, _, rfl, hs, hf, fun n h0 hn => C93_end_to_end _ _ hs hf _ ⟨by simp, ?_⟩⟩
  intro c hc
  simp only [List.mem_cons, List.not_mem_nil, or_false] at hc
  rcases hc with rfl | rfl
  · intro e; have := congrArg List.length e; simp only [List.length_take, List.length_nil] at this; omega
  · intro e; have := congrArg List.length e; simp only [List.length_drop, List.length_nil] at this; omega

end Siphon.Parse
