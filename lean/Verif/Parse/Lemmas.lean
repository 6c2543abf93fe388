import Verif.Parse.Model
import Verif.Parse.Spec
import Verif.Core.HeadersGet
import Verif.Core.MethodProps
import Verif.Base.TextLemmas
import Verif.Base.Strip
import Verif.Auth.LemmasText
import Verif.Transport.LemmasFraming
/-! Reading: the functions and the relations agree. -/
namespace Siphon.Parse

open Siphon.HdrSpec Siphon.TextSpec Siphon.Parse.Spec
open Siphon.Transport (findBlank findBlank_spec findBlank_exists findBlank_none)

/-! ## UTF-8 -/

theorem encode_mk (s : Str) : (ByteArray.mk (utf8 s).toArray) = s.utf8Encode := by
  apply ByteArray.ext
  simp [List.utf8Encode, utf8, List.data_toByteArray]

theorem fromUtf8_iff (b : Bytes) (s : Str) : fromUtf8 b = some s ↔ b = utf8 s := by
  constructor
  · intro h
    unfold fromUtf8 at h
    obtain ⟨a, h1, h2⟩ := Option.map_eq_some_iff.1 h
    have hs : (ByteArray.mk b.toArray).utf8Decode?.isSome := by rw [h1]; rfl
    have e := ByteArray.utf8Encode_get_utf8Decode? (b := ByteArray.mk b.toArray) (h := hs)
    simp only [h1, Option.get_some] at e
    rw [h2, ← encode_mk] at e
    have := congrArg (fun x => x.data.toList) e
    simpa using this.symm
  · rintro rfl
    unfold fromUtf8
    rw [encode_mk, List.utf8Decode?_utf8Encode]
    simp

/-! ## Lines -/

theorem joinLines_cons (l : Str) (ls : List Str) (h : ls ≠ []) : joinLines (l :: ls) = l ++ ['\r', '\n'] ++ joinLines ls := by
  cases ls with
  | nil => exact absurd rfl h
  | cons a t => rfl

theorem splitCrlf_ne_nil (s : Str) : splitCrlf s ≠ [] := by
  fun_cases splitCrlf s <;> simp_all

theorem splitCrlf_plain (l : Str) (h : ∀ a b, l ≠ a ++ ['\r', '\n'] ++ b) : splitCrlf l = [l] := by
  fun_induction splitCrlf l with
  | case1 => rfl
  | case2 => rfl
  | case3 x y s hxy ih => exact absurd (by rw [hxy.1, hxy.2]; rfl) (h [] s)
  | case4 x y s hxy hn ih => exact absurd hn (splitCrlf_ne_nil _)
  | case5 x y s hxy p ps hp ih =>
    have := ih (fun a b e => h (x :: a) b (by simp [e]))
    rw [this] at hp
    cases hp
    rfl

theorem splitCrlf_line (l s : Str) (h : ∀ a b, l ≠ a ++ ['\r', '\n'] ++ b) :
    splitCrlf (l ++ '\r' :: '\n' :: s) = l :: splitCrlf s := by
  induction l with
  | nil => simp [splitCrlf]
  | cons x l ih =>
    have ih := ih (fun a b e => h (x :: a) b (by simp [e]))
    cases l with
    | nil =>
      simp only [List.nil_append, List.cons_append] at ih ⊢
      rw [splitCrlf, if_neg (by simp), ih]
    | cons y l =>
      simp only [List.cons_append] at ih ⊢
      rw [splitCrlf, if_neg, ih]
      rintro ⟨rfl, rfl⟩
      exact h [] l rfl

theorem lines_iff (s : Str) (ls : List Str) : Lines s ls ↔ splitCrlf s = ls := by
  constructor
  · rintro ⟨h1, rfl, h3⟩
    induction ls with
    | nil => exact absurd rfl h1
    | cons l t ih =>
      cases t with
      | nil => exact splitCrlf_plain l (h3 l (by simp))
      | cons m t =>
        rw [joinLines_cons _ _ (by simp)]
        have : l ++ ['\r', '\n'] ++ joinLines (m :: t) = l ++ '\r' :: '\n' :: joinLines (m :: t) := by simp
        rw [this, splitCrlf_line l _ (h3 l (by simp)), ih (by simp) (fun x hx => h3 x (List.mem_cons_of_mem _ hx))]
  · rintro rfl
    refine ⟨splitCrlf_ne_nil s, ?_⟩
    fun_induction splitCrlf s with
    | case1 => exact ⟨rfl, by intro l hl a b; simp at hl; subst hl; simp⟩
    | case2 x =>
      refine ⟨rfl, ?_⟩
      intro l hl a b e
      simp at hl; subst hl
      have := congrArg List.length e
      simp at this
      omega
    | case3 x y s hxy ih =>
      obtain ⟨h1, h2⟩ := ih
      refine ⟨?_, ?_⟩
      · rw [joinLines_cons _ _ (splitCrlf_ne_nil s), ← h1, hxy.1, hxy.2]; rfl
      · intro l hl
        rcases List.mem_cons.1 hl with rfl | hl
        · simp
        · exact h2 l hl
    | case4 x y s hxy hn ih => exact absurd hn (splitCrlf_ne_nil _)
    | case5 x y s hxy p ps hp ih =>
      rw [hp] at ih
      obtain ⟨h1, h2⟩ := ih
      refine ⟨?_, ?_⟩
      · cases ps with
        | nil => simp only [joinLines] at h1 ⊢; rw [h1]
        | cons q qs =>
          rw [joinLines_cons _ _ (by simp)] at h1 ⊢
          rw [h1]; rfl
      · intro l hl a b e
        rcases List.mem_cons.1 hl with rfl | hl
        · cases a with
          | nil =>
            simp only [List.nil_append, List.cons_append, List.cons.injEq] at e
            obtain ⟨rfl, e⟩ := e
            have hy : y = '\n' := by
              have hj : (joinLines (p :: ps)).head? = some '\n' := by
                cases ps with
                | nil => simp [joinLines, e]
                | cons q qs => rw [joinLines_cons _ _ (by simp)]; simp [e]
              rw [← h1] at hj
              simpa using hj
            exact hxy ⟨rfl, hy⟩
          | cons z a =>
            simp only [List.cons_append, List.cons.injEq] at e
            exact h2 p (by simp) a b (by simp [e.2])
        · exact h2 l (List.mem_cons_of_mem _ hl) a b e

/-! ## Head and body -/

theorem headBody_iff (d : Bytes) (head : Str) (rest : Bytes) :
    splitHeadBody d = some (head, rest) ↔ HeadBody d head rest := by
  unfold splitHeadBody HeadBody Spec.blank
  cases hf : findBlank d with
  | some p =>
    obtain ⟨⟨c, h1⟩, h2, h3⟩ := findBlank_spec d p hf
    simp only [Option.map_eq_some_iff, Prod.mk.injEq]
    have hlen : (d.take p).length = p := by rw [List.length_take]; omega
    constructor
    · rintro ⟨s, hs, rfl, rfl⟩
      rw [fromUtf8_iff] at hs
      refine .inl ⟨?_, ?_⟩
      · rw [← hs]
        have : d.drop (p + 4) = c := by
          conv => lhs; rw [h1]
          rw [List.drop_left']
          simp [hlen]
        rw [this]; exact h1
      · intro a c' e
        rw [← hs, hlen]
        exact h3 a c' e
    · rintro (⟨e, hmin⟩ | ⟨_, _, hn⟩)
      · have hp : (utf8 head).length = p := by
          have a1 := hmin _ _ h1
          have a2 := h3 _ _ e
          rw [hlen] at a1
          omega
        refine ⟨head, ?_, rfl, ?_⟩
        · rw [fromUtf8_iff, e, ← hp, List.append_assoc, List.take_left']
          rfl
        · rw [e, ← hp, List.drop_left']
          simp
      · exact absurd h1 (hn _ _)
  | none =>
    simp only [Option.map_eq_some_iff, Prod.mk.injEq]
    have hn : ∀ a c, d ≠ a ++ [13, 10, 13, 10] ++ c := by
      intro a c e
      obtain ⟨p, hp, _⟩ := findBlank_exists a c
      rw [← show d = a ++ Transport.blank ++ c from e, hf] at hp
      cases hp
    constructor
    · rintro ⟨s, hs, rfl, rfl⟩
      exact .inr ⟨(fromUtf8_iff _ _).1 hs, rfl, hn⟩
    · rintro (⟨e, _⟩ | ⟨e, rfl, _⟩)
      · exact absurd e (hn _ _)
      · exact ⟨head, (fromUtf8_iff _ _).2 e, rfl, rfl⟩

/-! ## Combinators -/

theorem takeWhile_append_stop {p : Char → Bool} (a b : Str) (ha : ∀ c ∈ a, p c = true) (hb : ∀ c, b.head? = some c → p c = false) :
    (a ++ b).takeWhile p = a ∧ (a ++ b).dropWhile p = b := by
  induction a with
  | nil =>
    cases b with
    | nil => simp
    | cons x b => have := hb x rfl; simp [this]
  | cons x a ih =>
    have hx := ha x (by simp)
    obtain ⟨h1, h2⟩ := ih (fun c hc => ha c (List.mem_cons_of_mem _ hc))
    simp [hx, h1, h2]

theorem takeWhile1_iff (p : Char → Bool) (s a b : Str) : takeWhile1 p s = some (a, b) ↔
    s = a ++ b ∧ a ≠ [] ∧ (∀ c ∈ a, p c = true) ∧ (∀ c, b.head? = some c → p c = false) := by
  unfold takeWhile1
  constructor
  · intro h
    split at h
    · cases h
    · rename_i hne
      cases h
      refine ⟨List.takeWhile_append_dropWhile.symm, by simpa using hne, fun c hc => ?_, fun c hc => ?_⟩
      · exact List.all_eq_true.mp List.all_takeWhile c hc
      · exact dropWhile_head s c hc
  · rintro ⟨rfl, h1, h2, h3⟩
    obtain ⟨e1, e2⟩ := takeWhile_append_stop a b h2 h3
    rw [e1, e2, if_neg (by simpa using h1)]

theorem isBlank_iff (c : Char) : (c == ' ' || c == '\t') = true ↔ c = ' ' ∨ c = '\t' := by simp

theorem space1_iff (s b : Str) : space1 s = some b ↔ ∃ g, s = g ++ b ∧ Gap g ∧ ∀ c, b.head? = some c → c ≠ ' ' ∧ c ≠ '\t' := by
  unfold space1 Gap
  rw [Option.map_eq_some_iff]
  constructor
  · rintro ⟨⟨g, b'⟩, h, rfl⟩
    obtain ⟨h1, h2, h3, h4⟩ := (takeWhile1_iff _ _ _ _).1 h
    exact ⟨g, h1, ⟨h2, fun c hc => (isBlank_iff c).1 (h3 c hc)⟩, fun c hc => by have := h4 c hc; simpa using this⟩
  · rintro ⟨g, h1, ⟨h2, h3⟩, h4⟩
    exact ⟨(g, b), (takeWhile1_iff _ _ _ _).2 ⟨h1, h2, fun c hc => (isBlank_iff c).2 (h3 c hc), fun c hc => by simpa using h4 c hc⟩, rfl⟩

theorem gap_ws {g : Str} (h : Gap g) : ∀ c ∈ g, isWs c = true := by
  intro c hc
  rcases h.2 c hc with rfl | rfl <;> decide

/-! ## Start lines -/

theorem known_methods (t : Str) (m : Method) : (∃ p ∈ known, SameName t p.1.toList ∧ m = p.2) ↔
    m ∈ knownMethods ∧ lower t = lower m.asStr := by
  simp only [sameName_iff, eqIgnoreCase, beq_iff_eq]
  constructor
  · rintro ⟨p, hp, h, rfl⟩
    simp only [known, List.mem_cons, List.not_mem_nil, or_false] at hp
    rcases hp with rfl | rfl | rfl | rfl | rfl | rfl | rfl | rfl | rfl | rfl | rfl | rfl | rfl | rfl <;>
      exact ⟨by simp [knownMethods], h⟩
  · rintro ⟨hm, h⟩
    simp only [knownMethods, List.mem_cons, List.not_mem_nil, or_false] at hm
    rcases hm with rfl | rfl | rfl | rfl | rfl | rfl | rfl | rfl | rfl | rfl | rfl | rfl | rfl | rfl
    · exact ⟨("INVITE", .invite), by simp [known], h, rfl⟩
    · exact ⟨("ACK", .ack), by simp [known], h, rfl⟩
    · exact ⟨("BYE", .bye), by simp [known], h, rfl⟩
    · exact ⟨("CANCEL", .cancel), by simp [known], h, rfl⟩
    · exact ⟨("REGISTER", .register), by simp [known], h, rfl⟩
    · exact ⟨("OPTIONS", .options), by simp [known], h, rfl⟩
    · exact ⟨("INFO", .info), by simp [known], h, rfl⟩
    · exact ⟨("UPDATE", .update), by simp [known], h, rfl⟩
    · exact ⟨("MESSAGE", .message), by simp [known], h, rfl⟩
    · exact ⟨("PRACK", .prack), by simp [known], h, rfl⟩
    · exact ⟨("REFER", .refer), by simp [known], h, rfl⟩
    · exact ⟨("SUBSCRIBE", .subscribe), by simp [known], h, rfl⟩
    · exact ⟨("NOTIFY", .notify), by simp [known], h, rfl⟩
    · exact ⟨("PUBLISH", .publish), by simp [known], h, rfl⟩

theorem methodChar_token (c : Char) : isMethodChar c = true ↔ TokenChar c := isHeaderNameChar_iff c

theorem names_iff (t : Str) (m : Method) : Method.fromToken t = .ok m ↔ Names t m := by
  unfold Names
  rw [known_methods]
  have hno : (∀ p ∈ known, ¬ SameName t p.1.toList) ↔ ∀ m ∈ knownMethods, lower t ≠ lower m.asStr := by
    constructor
    · intro h k hk e
      obtain ⟨p, hp, h1, _⟩ := (known_methods t k).2 ⟨hk, e⟩
      exact h p hp h1
    · intro h p hp e
      obtain ⟨h1, h2⟩ := (known_methods t p.2).1 ⟨p, hp, e, rfl⟩
      exact h _ h1 h2
  rw [hno]
  have hv : validateMethodToken t = .ok () ↔ Token t ∧ utf8Len t ≤ 32 := by
    rw [validate_ok_iff]
    constructor
    · rintro ⟨a, b, c⟩; exact ⟨⟨a, fun x hx => (methodChar_token x).1 (c x hx)⟩, b⟩
    · rintro ⟨⟨a, b⟩, c⟩; exact ⟨a, c, fun x hx => (methodChar_token x).2 (b x hx)⟩
  constructor
  · intro h
    rcases fromToken_cases t m h with h | ⟨rfl, h1, h2⟩
    · exact .inl h
    · exact .inr ⟨h2, (hv.1 h1).1, (hv.1 h1).2, rfl⟩
  · rintro (⟨h1, h2⟩ | ⟨h1, h2, h3, rfl⟩)
    · exact fromToken_known t m h1 h2
    · rw [fromToken_unknown t h1, hv.2 ⟨h2, h3⟩]

theorem tokenChar_ok (c : Char) (h : TokenChar c) : isTokenChar c = true ∧ isWs c = false := by
  unfold TokenChar at h
  have hn : (97 ≤ c.toNat ∧ c.toNat ≤ 122) ∨ (65 ≤ c.toNat ∧ c.toNat ≤ 90) ∨ (48 ≤ c.toNat ∧ c.toNat ≤ 57) ∨
      c ∈ ("-.!%*_+`'~^|".toList) := by
    rcases h with h | h | h | h
    · exact .inr (.inl h)
    · exact .inl h
    · exact .inr (.inr (.inl h))
    · exact .inr (.inr (.inr h))
  constructor
  · simp only [isTokenChar, Bool.or_eq_true, isAlnum_iff]
    rcases hn with h | h | h | h
    · exact .inl (by omega)
    · exact .inl (by omega)
    · exact .inl (by omega)
    · right
      simp at h
      rcases h with rfl | rfl | rfl | rfl | rfl | rfl | rfl | rfl | rfl | rfl | rfl | rfl <;> decide
  · rcases hn with h | h | h | h
    · simp [isWs]; omega
    · simp [isWs]; omega
    · simp [isWs]; omega
    · simp at h
      rcases h with rfl | rfl | rfl | rfl | rfl | rfl | rfl | rfl | rfl | rfl | rfl | rfl <;> decide

theorem names_chars {t : Str} {m : Method} (h : Names t m) : t ≠ [] ∧ ∀ c ∈ t, TokenChar c := by
  rcases h with ⟨p, hp, h, _⟩ | ⟨_, h, _⟩
  · rw [sameName_iff, eqIgnoreCase, beq_iff_eq] at h
    have key : p.1.toList ≠ [] ∧ p.1.toList.all isMethodChar = true := by
      simp only [known, List.mem_cons, List.not_mem_nil, or_false] at hp
      rcases hp with rfl | rfl | rfl | rfl | rfl | rfl | rfl | rfl | rfl | rfl | rfl | rfl | rfl | rfl <;> decide
    have hl : ∀ s : Str, s.all isMethodChar = (lower s).all isMethodChar := by
      intro s; simp [lower, isMethodChar_toLower, List.all_map, Function.comp_def]
    refine ⟨?_, ?_⟩
    · rintro rfl
      have := congrArg List.length h
      simp [lower] at this
      exact key.1 (List.length_eq_zero_iff.1 this.symm)
    · intro c hc
      have := key.2
      rw [hl, ← h, ← hl] at this
      exact (methodChar_token c).1 (List.all_eq_true.1 this c hc)
  · exact h

theorem asStr_of_parse {u : Str} {x : Uri} (h : Uri.parse u = some x) (hw : ∀ c ∈ u, isWs c = false) : x.asStr = u := by
  unfold Uri.parse at h
  split at h
  · cases h
  split at h
  · obtain ⟨y, hy, rfl⟩ := Option.map_eq_some_iff.1 h
    simp only [Uri.asStr]
    unfold TelUri.parse at hy
    simp only at hy
    repeat' split at hy
    all_goals first | cases hy; done | (cases hy; rfl)
  split at h
  · obtain ⟨y, hy, rfl⟩ := Option.map_eq_some_iff.1 h
    simp only [Uri.asStr]
    unfold SipUri.parse at hy
    simp only at hy
    repeat' split at hy
    all_goals first | cases hy; done | (cases hy; rfl)
  · obtain ⟨y, hy, rfl⟩ := Option.map_eq_some_iff.1 h
    simp only [Uri.asStr]
    unfold parseAbsolute at hy
    repeat' split at hy
    all_goals first | cases hy; done | (cases hy; exact trim_of_trimmed _ (trimmed_of_all _ hw))

theorem not_blank_of_not_ws {s : Str} (h : ∀ c ∈ s, isWs c = false) : ∀ c, s.head? = some c → c ≠ ' ' ∧ c ≠ '\t' := by
  intro c hc
  have := h c (List.mem_of_mem_head? hc)
  constructor <;> rintro rfl <;> revert this <;> decide

theorem requestLine_iff (line : Str) (m : Method) (u : Str) : parseRequestLine line = some (m, u) ↔ RequestLine line m u := by
  unfold RequestLine
  constructor
  · intro h
    unfold parseRequestLine at h
    split at h
    · cases h
    rename_i meth r h1
    split at h
    · cases h
    rename_i r2 h2
    split at h
    · cases h
    rename_i uri r3 h3
    split at h
    · cases h
    rename_i v h4
    split at h
    · cases h
    rename_i h5
    split at h
    · cases h
    rename_i m' h6
    split at h
    · cases h
    rename_i x h7
    cases h
    obtain ⟨a1, a2, a3, a4⟩ := (takeWhile1_iff _ _ _ _).1 h1
    obtain ⟨g, b1, b2, b3⟩ := (space1_iff _ _).1 h2
    obtain ⟨c1, c2, c3, c4⟩ := (takeWhile1_iff _ _ _ _).1 h3
    obtain ⟨g', d1, d2, d3⟩ := (space1_iff _ _).1 h4
    have hw : ∀ c ∈ uri, isWs c = false := fun c hc => by simpa using c3 c hc
    rw [asStr_of_parse h7 hw]
    refine ⟨meth, g, g', v, ?_, (names_iff _ _).1 h6, b2, c2, hw, ⟨x, h7⟩, d2, ?_⟩
    · rw [strips_trim, a1, b1, c1, d1]; simp
    · rw [sameName_iff]; simpa using h5
  · rintro ⟨t, g, g', v, h1, h2, h3, h4, h5, ⟨x, h6⟩, h7, h8⟩
    rw [strips_trim] at h1
    obtain ⟨n1, n2⟩ := names_chars h2
    unfold parseRequestLine
    have hv : v ≠ [] ∧ ∀ c, v.head? = some c → c ≠ ' ' ∧ c ≠ '\t' := by
      rw [sameName_iff, eqIgnoreCase, beq_iff_eq] at h8
      cases v with
      | nil => exact absurd h8 (by decide)
      | cons c v =>
        refine ⟨by simp, ?_⟩
        intro c' hc'
        simp at hc'; subst hc'
        have : c.toLower = 's' := by
          have := congrArg List.head? h8
          simpa [lower] using this
        constructor <;> rintro rfl <;> revert this <;> decide
    have e1 : takeWhile1 isTokenChar (trim line) = some (t, g ++ (u ++ (g' ++ v))) := by
      rw [takeWhile1_iff]
      refine ⟨by rw [← h1]; simp, n1, fun c hc => (tokenChar_ok c (n2 c hc)).1, ?_⟩
      intro c hc
      cases g with
      | nil => exact absurd rfl h3.1
      | cons y g =>
        simp at hc; subst hc
        rcases h3.2 y (by simp) with rfl | rfl <;> decide
    have e2 : space1 (g ++ (u ++ (g' ++ v))) = some (u ++ (g' ++ v)) := by
      rw [space1_iff]
      refine ⟨g, rfl, h3, ?_⟩
      intro c hc
      cases u with
      | nil => exact absurd rfl h4
      | cons y u => exact not_blank_of_not_ws h5 c hc
    have e3 : takeWhile1 (fun c => !isWs c) (u ++ (g' ++ v)) = some (u, g' ++ v) := by
      rw [takeWhile1_iff]
      refine ⟨rfl, h4, fun c hc => by simpa using h5 c hc, ?_⟩
      intro c hc
      cases g' with
      | nil => exact absurd rfl h7.1
      | cons y g => simp at hc; subst hc; simpa using gap_ws h7 y (by simp)
    have e4 : space1 (g' ++ v) = some v := by
      rw [space1_iff]
      exact ⟨g', rfl, h7, hv.2⟩
    rw [e1]; simp only
    rw [e2]; simp only
    rw [e3]; simp only
    rw [e4]; simp only
    rw [sameName_iff] at h8
    rw [h8, (names_iff _ _).2 h2]
    simp [h6, asStr_of_parse h6 h5]

theorem decDigits_chars {s : Str} {n : Nat} (h : DecDigits s n) : ∀ c ∈ s, isDigit c = true := by
  induction h with
  | one h1 h2 => intro c hc; simp at hc; subst hc; rw [isDigit_iff]; exact ⟨h1, h2⟩
  | snoc h h1 h2 ih =>
    intro c hc
    rcases List.mem_append.1 hc with hc | hc
    · exact ih c hc
    · simp at hc; subst hc; rw [isDigit_iff]; exact ⟨h1, h2⟩

theorem digits_iff (max : Nat) (s : Str) (n : Nat) (hne : s ≠ []) (hd : ∀ c ∈ s, isDigit c = true) :
    parseDecDigits max s 0 = some n ↔ DecDigits s n ∧ n ≤ max := by
  have e : parseDecDigits max s 0 = parseDec max s := by
    unfold parseDec
    split
    · exact absurd rfl hne
    · exact absurd (hd '+' (by simp)) (by decide)
    · exact absurd (hd '+' (by simp)) (by decide)
    · rfl
  rw [e, parseDec_iff]
  constructor
  · rintro ⟨h | ⟨r, rfl, _⟩, h2⟩
    · exact ⟨h, h2⟩
    · exact absurd (hd '+' (by simp)) (by decide)
  · rintro ⟨h, h2⟩; exact ⟨.inl h, h2⟩

theorem nomU16_iff (s r : Str) (n : Nat) : nomU16 s = some (n, r) ↔
    ∃ d, s = d ++ r ∧ DecDigits d n ∧ n ≤ 65535 ∧ ∀ c, r.head? = some c → isDigit c = false := by
  unfold nomU16
  constructor
  · intro h
    split at h
    · cases h
    rename_i ds rest h1
    split at h
    · cases h
    rename_i k h2
    cases h
    obtain ⟨a1, a2, a3, a4⟩ := (takeWhile1_iff _ _ _ _).1 h1
    obtain ⟨b1, b2⟩ := (digits_iff _ _ _ a2 a3).1 h2
    exact ⟨ds, a1, b1, b2, a4⟩
  · rintro ⟨d, h1, h2, h3, h4⟩
    have hd := decDigits_chars h2
    rw [(takeWhile1_iff _ _ _ _).2 ⟨h1, decDigits_ne h2, hd, h4⟩]
    simp only
    rw [(digits_iff 65535 d n (decDigits_ne h2) hd).2 ⟨h2, h3⟩]

theorem tagNoCase_iff (t s r : Str) : tagNoCase t s = some r ↔ ∃ v, s = v ++ r ∧ SameName v t := by
  unfold tagNoCase
  constructor
  · intro h
    split at h
    · rename_i h1
      cases h
      exact ⟨s.take t.length, (List.take_append_drop _ _).symm, (sameName_iff _ _).2 h1⟩
    · cases h
  · rintro ⟨v, rfl, h⟩
    have hl : v.length = t.length := by
      rw [sameName_iff, eqIgnoreCase, beq_iff_eq] at h
      have := congrArg List.length h
      simpa [lower] using this
    rw [← hl, List.take_left', List.drop_left', if_pos ((sameName_iff _ _).1 h)] <;> rfl

theorem trim_blanks (g s : Str) (h : ∀ c ∈ g, isWs c = true) : trim (g ++ s) = trim s := by
  unfold trim trimStart
  rw [dropWhile_append_all g s h]

theorem statusLine_iff (line : Str) (code : Nat) (reason : Str) :
    (parseStatusLine line = some (code, reason) ∧ 100 ≤ code ∧ code ≤ 699 ∧ validateReason reason = .ok ()) ↔
      StatusLine line code reason := by
  have hreason : validateReason reason = .ok () ↔ utf8Len reason ≤ 256 ∧ ∀ c ∈ reason, 32 ≤ c.toNat ∧ c.toNat ≠ 127 := by
    unfold validateReason MAX_REASON_LENGTH
    by_cases h1 : utf8Len reason > 256
    · rw [if_pos h1]; simp; omega
    · rw [if_neg h1]
      by_cases h2 : reason.any isAsciiControl = true
      · rw [if_pos h2]
        simp only [reduceCtorEq, false_iff, not_and]
        intro _ h
        obtain ⟨c, hc, h3⟩ := List.any_eq_true.1 h2
        have := h c hc
        simp only [isAsciiControl, Bool.or_eq_true, decide_eq_true_eq, beq_iff_eq] at h3
        omega
      · rw [if_neg h2]
        simp only [true_iff]
        refine ⟨by omega, fun c hc => ?_⟩
        have : ¬ (isAsciiControl c = true) := fun h => h2 (List.any_eq_true.2 ⟨c, hc, h⟩)
        simp only [isAsciiControl, Bool.or_eq_true, decide_eq_true_eq, beq_iff_eq] at this
        omega
  unfold StatusLine
  constructor
  · rintro ⟨h, hc1, hc2, hr⟩
    unfold parseStatusLine at h
    split at h
    · cases h
    rename_i r1 h1
    split at h
    · cases h
    rename_i r2 h2
    split at h
    · cases h
    rename_i n r3 h3
    split at h
    · cases h
    rename_i r4 h4
    cases h
    obtain ⟨v, a1, a2⟩ := (tagNoCase_iff _ _ _).1 h1
    obtain ⟨g, b1, b2, _⟩ := (space1_iff _ _).1 h2
    obtain ⟨d, c1, c2, _, _⟩ := (nomU16_iff _ _ _).1 h3
    obtain ⟨g', d1, d2, _⟩ := (space1_iff _ _).1 h4
    refine ⟨v, g, d, g', r4, ?_, a2, b2, c2, hc1, hc2, d2, (strips_trim _ _).2 rfl, (hreason.1 hr).1, (hreason.1 hr).2⟩
    rw [strips_trim, a1, b1, c1, d1]; simp
  · rintro ⟨v, g, d, g', r, h1, h2, h3, h4, hc1, hc2, h5, h6, h7, h8⟩
    refine ⟨?_, hc1, hc2, hreason.2 ⟨h7, h8⟩⟩
    rw [strips_trim] at h1 h6
    unfold parseStatusLine
    rw [(tagNoCase_iff _ _ (g ++ (d ++ (g' ++ r)))).2 ⟨v, by rw [← h1]; simp, h2⟩]
    simp only
    have hd := decDigits_chars h4
    have hne := decDigits_ne h4
    rw [(space1_iff _ (d ++ (g' ++ r))).2 ⟨g, rfl, h3, by
      intro c hc
      refine not_blank_of_not_ws (fun x hx => isDigit_not_ws x (hd x hx)) c ?_
      cases d with
      | nil => exact absurd rfl hne
      | cons y d => exact hc⟩]
    simp only
    rw [(nomU16_iff _ (g' ++ r) code).2 ⟨d, rfl, h4, by omega, by
      intro c hc
      cases g' with
      | nil => exact absurd rfl h5.1
      | cons y g' =>
        simp at hc; subst hc
        rcases h5.2 y (by simp) with rfl | rfl <;> decide⟩]
    simp only
    -- all blanks are taken, which does not change the trimmed reason
    have hsp : ∃ r', space1 (g' ++ r) = some r' ∧ trim r' = trim r := by
      refine ⟨r.dropWhile (fun c => c == ' ' || c == '\t'), ?_, ?_⟩
      · rw [space1_iff]
        refine ⟨g' ++ r.takeWhile (fun c => c == ' ' || c == '\t'), by simp, ⟨by simp [h5.1], ?_⟩, ?_⟩
        · intro c hc
          rcases List.mem_append.1 hc with hc | hc
          · exact h5.2 c hc
          · exact (isBlank_iff c).1 (List.all_eq_true.mp List.all_takeWhile c hc)
        · intro c hc
          have := dropWhile_head r c hc
          simpa using this
      · conv => rhs; rw [← List.takeWhile_append_dropWhile (p := fun c => c == ' ' || c == '\t') (l := r)]
        rw [trim_blanks]
        intro c hc
        have := (isBlank_iff c).1 (List.all_eq_true.mp List.all_takeWhile c hc)
        rcases this with rfl | rfl <;> decide
    obtain ⟨r', e1, e2⟩ := hsp
    rw [e1]
    simp only
    rw [e2, h6]

/-! ## Header lines -/

theorem canonical_find (n : Str) : canonicalHeaderName n =
    match compact.find? (fun p => decide (lower n = [p.1])) with
    | some p => p.2.toList
    | none => n := by
  unfold canonicalHeaderName compact
  simp only [show "i".toList = ['i'] from rfl, show "f".toList = ['f'] from rfl, show "t".toList = ['t'] from rfl, show "m".toList = ['m'] from rfl, show "l".toList = ['l'] from rfl, show "s".toList = ['s'] from rfl, show "k".toList = ['k'] from rfl, show "o".toList = ['o'] from rfl, show "e".toList = ['e'] from rfl, show "c".toList = ['c'] from rfl, show "v".toList = ['v'] from rfl, show "r".toList = ['r'] from rfl, show "b".toList = ['b'] from rfl, show "d".toList = ['d'] from rfl, show "x".toList = ['x'] from rfl, show "a".toList = ['a'] from rfl, show "u".toList = ['u'] from rfl]
  generalize lower n = l
  by_cases hi : l = ['i']
  · subst hi; rfl
  rw [if_neg hi, List.find?_cons_of_neg (by simpa using hi)]
  by_cases hf : l = ['f']
  · subst hf; rfl
  rw [if_neg hf, List.find?_cons_of_neg (by simpa using hf)]
  by_cases ht : l = ['t']
  · subst ht; rfl
  rw [if_neg ht, List.find?_cons_of_neg (by simpa using ht)]
  by_cases hm : l = ['m']
  · subst hm; rfl
  rw [if_neg hm, List.find?_cons_of_neg (by simpa using hm)]
  by_cases hl : l = ['l']
  · subst hl; rfl
  rw [if_neg hl, List.find?_cons_of_neg (by simpa using hl)]
  by_cases hs : l = ['s']
  · subst hs; rfl
  rw [if_neg hs, List.find?_cons_of_neg (by simpa using hs)]
  by_cases hk : l = ['k']
  · subst hk; rfl
  rw [if_neg hk, List.find?_cons_of_neg (by simpa using hk)]
  by_cases ho : l = ['o']
  · subst ho; rfl
  rw [if_neg ho, List.find?_cons_of_neg (by simpa using ho)]
  by_cases he : l = ['e']
  · subst he; rfl
  rw [if_neg he, List.find?_cons_of_neg (by simpa using he)]
  by_cases hc : l = ['c']
  · subst hc; rfl
  rw [if_neg hc, List.find?_cons_of_neg (by simpa using hc)]
  by_cases hv : l = ['v']
  · subst hv; rfl
  rw [if_neg hv, List.find?_cons_of_neg (by simpa using hv)]
  by_cases hr : l = ['r']
  · subst hr; rfl
  rw [if_neg hr, List.find?_cons_of_neg (by simpa using hr)]
  by_cases hb : l = ['b']
  · subst hb; rfl
  rw [if_neg hb, List.find?_cons_of_neg (by simpa using hb)]
  by_cases hd : l = ['d']
  · subst hd; rfl
  rw [if_neg hd, List.find?_cons_of_neg (by simpa using hd)]
  by_cases hx : l = ['x']
  · subst hx; rfl
  rw [if_neg hx, List.find?_cons_of_neg (by simpa using hx)]
  by_cases ha : l = ['a']
  · subst ha; rfl
  rw [if_neg ha, List.find?_cons_of_neg (by simpa using ha)]
  by_cases hu : l = ['u']
  · subst hu; rfl
  rw [if_neg hu, List.find?_cons_of_neg (by simpa using hu)]
  rfl

theorem compact_lower : ∀ p ∈ compact, lower [p.1] = [p.1] := by
  intro p hp
  simp only [compact, List.mem_cons, List.not_mem_nil, or_false] at hp
  rcases hp with rfl | rfl | rfl | rfl | rfl | rfl | rfl | rfl | rfl | rfl | rfl | rfl | rfl | rfl | rfl | rfl | rfl <;>
    decide

theorem compact_inj : ∀ p ∈ compact, ∀ q ∈ compact, p.1 = q.1 → p.2 = q.2 := by decide

theorem fullName_iff (n full : Str) : canonicalHeaderName n = full ↔ FullName n full := by
  unfold FullName
  simp only [sameName_iff, eqIgnoreCase, beq_iff_eq]
  rw [canonical_find]
  cases hf : compact.find? (fun p => decide (lower n = [p.1])) with
  | some p =>
    have h1 := List.find?_some hf
    have h2 := List.mem_of_find?_eq_some hf
    simp only [decide_eq_true_eq] at h1
    simp only
    constructor
    · rintro rfl; exact .inl ⟨p, h2, by rw [h1, compact_lower p h2], rfl⟩
    · rintro (⟨q, hq, e, rfl⟩ | ⟨h, _⟩)
      · rw [compact_lower q hq, h1] at e
        rw [compact_inj p h2 q hq (by simpa using e)]
      · exact absurd (by rw [h1, compact_lower p h2]) (h p h2)
  | none =>
    rw [List.find?_eq_none] at hf
    simp only
    constructor
    · rintro rfl
      refine .inr ⟨fun p hp e => ?_, rfl⟩
      have := hf p hp
      rw [e, compact_lower p hp] at this
      simp at this
    · rintro (⟨q, hq, e, rfl⟩ | ⟨_, rfl⟩)
      · have := hf q hq
        rw [e, compact_lower q hq] at this
        simp at this
      · rfl

theorem field_push (line : Str) (h : Header) (hs : Headers) (hroom : hs.inner.length < 200) : Field line h ↔
    line ≠ [] ∧ ([' '].isPrefixOf line || ['\t'].isPrefixOf line) = false ∧
      ∃ n v, splitOnce ':' line = some (n, v) ∧ hs.push (canonicalHeaderName (trim n)) (trim v) = .ok ⟨hs.inner ++ [h]⟩ := by
  have hpush : ∀ a b, hs.push a b = .ok ⟨hs.inner ++ [h]⟩ ↔ h = ⟨a, b⟩ ∧ Storable h := by
    intro a b
    unfold Headers.push MAX_HEADERS
    rw [if_neg (by omega)]
    cases hn : Header.new a b with
    | error e =>
      simp only [reduceCtorEq, false_iff, not_and]
      rintro rfl ⟨h1, h2, h3, h4⟩
      rw [(header_new_ok_iff a b _).2 ⟨rfl, h1, h2, h3, h4⟩] at hn
      cases hn
    | ok k =>
      obtain ⟨rfl, h1⟩ := (header_new_ok_iff _ _ _).1 hn
      simp only [Except.ok.injEq, Headers.mk.injEq, List.append_cancel_left_eq, List.cons.injEq, and_true]
      constructor
      · rintro rfl; exact ⟨rfl, h1⟩
      · rintro ⟨rfl, _⟩; rfl
  have hpre : ∀ c : Char, [c].isPrefixOf line = false ↔ line.head? ≠ some c := by
    intro c
    cases line with
    | nil => simp
    | cons x l =>
      simp only [List.isPrefixOf, Bool.and_true, List.head?_cons, ne_eq, Option.some.injEq, beq_eq_false_iff_ne]
      exact ⟨fun h e => h e.symm, fun h e => h e.symm⟩
  rw [Bool.or_eq_false_iff, hpre, hpre]
  unfold Field
  constructor
  · rintro ⟨n, v, n', h1, h2, h3, h4, h5, h6, h7, h8⟩
    refine ⟨by rw [h1]; simp, ⟨h3, h4⟩, n, v, by rw [h1, splitOnce_append _ _ _ h2], ?_⟩
    rw [hpush]
    rw [strips_trim] at h5 h7
    subst h5
    rw [← fullName_iff] at h6
    refine ⟨?_, h8⟩
    cases h
    simp_all
  · rintro ⟨h1, ⟨h3, h4⟩, n, v, h5, h6⟩
    rw [hpush] at h6
    obtain ⟨rfl, h7⟩ := h6
    obtain ⟨e1, e2⟩ := (Auth.splitOnce_some_iff _ _ _ _).1 h5
    exact ⟨n, v, trim n, e1, e2, h3, h4, (strips_trim _ _).2 rfl, (fullName_iff _ _).1 rfl, (strips_trim _ _).2 rfl, h7⟩

theorem field_ne {l : Str} {h : Header} (hf : Field l h) : l ≠ [] := by
  obtain ⟨n, v, _, rfl, _⟩ := hf
  simp

theorem headers_iff : ∀ (ls : List Str) (hs hs' : Headers), hs.inner.length ≤ 200 →
    (parseHeaders ls hs = some hs' ↔ ∃ fs, Fields ls fs ∧ hs'.inner = hs.inner ++ fs ∧ hs'.inner.length ≤ 200)
  | [], hs, hs', hl => by
    simp only [parseHeaders, Option.some.injEq]
    constructor
    · rintro rfl; exact ⟨[], .nil, by simp, hl⟩
    · rintro ⟨fs, hf, h1, _⟩
      cases hf
      cases hs; cases hs'
      simp_all
  | l :: ls, hs, hs', hl => by
    by_cases hempty : l = []
    · subst hempty
      rw [show parseHeaders ([] :: ls) hs = parseHeaders ls hs from by simp [parseHeaders]]
      rw [headers_iff ls hs hs' hl]
      constructor
      · rintro ⟨fs, h1, h2⟩; exact ⟨fs, .skip h1, h2⟩
      · rintro ⟨fs, h1, h2⟩
        cases h1 with
        | skip h1 => exact ⟨fs, h1, h2⟩
        | cons hf _ => exact absurd rfl (field_ne hf)
    · constructor
      · intro h
        simp only [parseHeaders] at h
        rw [if_neg (by simpa using hempty)] at h
        split at h
        · cases h
        rename_i hpre
        split at h
        · cases h
        rename_i n v hsp
        split at h
        · cases h
        rename_i hs2 hpush
        have hroom : hs.inner.length < 200 := by
          unfold Headers.push MAX_HEADERS at hpush
          by_cases hb : hs.inner.length ≥ 200
          · rw [if_pos hb] at hpush; cases hpush
          · omega
        have hf : ∃ hd, hs2 = ⟨hs.inner ++ [hd]⟩ := by
          unfold Headers.push at hpush
          split at hpush
          · cases hpush
          · split at hpush
            · cases hpush
            · cases hpush; exact ⟨_, rfl⟩
        obtain ⟨hd, rfl⟩ := hf
        have hfield := (field_push l hd hs hroom).2 ⟨hempty, Bool.eq_false_iff.2 hpre, n, v, hsp, hpush⟩
        obtain ⟨fs, h1, h2, h3⟩ := (headers_iff ls ⟨hs.inner ++ [hd]⟩ hs' (by simp; omega)).1 h
        exact ⟨hd :: fs, .cons hfield h1, by simp [h2], h3⟩
      · rintro ⟨fs, h1, h2, h3⟩
        cases h1 with
        | skip _ => exact absurd rfl hempty
        | @cons _ hd _ fs hf h1 =>
          have hroom : hs.inner.length < 200 := by rw [h2] at h3; simp at h3; omega
          obtain ⟨_, g2, n, v, g3, g4⟩ := (field_push l hd hs hroom).1 hf
          simp only [parseHeaders]
          rw [if_neg (by simpa using hempty), if_neg (Bool.eq_false_iff.1 g2), g3]
          simp only
          rw [g4]
          simp only
          rw [headers_iff ls ⟨hs.inner ++ [hd]⟩ hs' (by simp; omega)]
          exact ⟨fs, h1, by simp [h2], h3⟩

/-! ## Checks -/

theorem single_iff (hs : Headers) : singletonUnique hs = true ↔ Single hs.inner := by
  unfold singletonUnique SINGLETON_HEADERS Single
  simp only [List.all_eq_true, decide_eq_true_eq]
  have h1 : ∀ n : Str, hs.count n ≤ 1 ↔ ∀ vs, Selects n hs.inner vs → vs.length ≤ 1 := by
    intro n
    rw [C24_count]
    constructor
    · intro h vs hv; rw [selects_unique hv (C24_getAll hs n)]; exact h
    · intro h; exact h _ (C24_getAll hs n)
  constructor
  · intro h n hn
    refine (h1 _).1 (h n.toList ?_)
    simp only [List.mem_cons, List.not_mem_nil, or_false] at hn ⊢
    rcases hn with rfl | rfl | rfl | rfl | rfl <;> simp
  · intro h n hn
    simp only [List.mem_cons, List.not_mem_nil, or_false] at hn
    rcases hn with rfl | rfl | rfl | rfl | rfl <;> exact (h1 _).2 (h _ (by simp))

theorem stripPrefix_some {p s t : Str} : stripPrefix p s = some t ↔ s = p ++ t := by
  unfold stripPrefix
  constructor
  · intro h
    split at h
    · rename_i hp
      cases h
      obtain ⟨t, rfl⟩ := List.isPrefixOf_iff_prefix.1 hp
      simp
    · cases h
  · rintro rfl
    rw [if_pos (List.isPrefixOf_iff_prefix.2 ⟨t, rfl⟩)]
    simp

theorem findSome_split {α β : Type} (f : α → Option β) (l : List α) (b : β) : l.findSome? f = some b ↔
    ∃ x a y, l = x ++ a :: y ∧ f a = some b ∧ ∀ q ∈ x, f q = none := by
  induction l with
  | nil => simp
  | cons a l ih =>
    rw [List.findSome?_cons]
    cases hf : f a with
    | some c =>
      simp only [Option.some.injEq]
      constructor
      · rintro rfl; exact ⟨[], a, l, rfl, hf, by simp⟩
      · rintro ⟨x, a', y, h1, h2, h3⟩
        cases x with
        | nil => simp only [List.nil_append, List.cons.injEq] at h1; obtain ⟨rfl, rfl⟩ := h1; rw [hf] at h2; simpa using h2
        | cons q x =>
          simp only [List.cons_append, List.cons.injEq] at h1
          have := h3 a (by rw [h1.1]; simp)
          rw [hf] at this; cases this
    | none =>
      simp only
      rw [ih]
      constructor
      · rintro ⟨x, a', y, rfl, h2, h3⟩
        refine ⟨a :: x, a', y, rfl, h2, ?_⟩
        intro q hq
        rcases List.mem_cons.1 hq with rfl | hq
        · exact hf
        · exact h3 q hq
      · rintro ⟨x, a', y, h1, h2, h3⟩
        cases x with
        | nil => simp only [List.nil_append, List.cons.injEq] at h1; obtain ⟨rfl, rfl⟩ := h1; rw [hf] at h2; cases h2
        | cons q x =>
          simp only [List.cons_append, List.cons.injEq] at h1
          exact ⟨x, a', y, h1.2, h2, fun q' hq' => h3 q' (List.mem_cons_of_mem _ hq')⟩

theorem branchOf_iff (via b : Str) : viaBranch via = some b ↔ BranchOf via b := by
  unfold viaBranch BranchOf
  rw [findSome_split]
  constructor
  · rintro ⟨x, a, y, h1, h2, h3⟩
    refine ⟨x, a, y, (pieces_iff _ _ _).2 h1.symm, ?_, ?_⟩
    · rw [strips_trim]; exact (stripPrefix_some.1 h2).symm
    · intro q hq t ht
      rw [strips_trim] at ht
      have := h3 q hq
      rw [stripPrefix_some.2 ht.symm] at this
      cases this
  · rintro ⟨x, a, y, h1, h2, h3⟩
    refine ⟨x, a, y, ((pieces_iff _ _ _).1 h1).symm, ?_, ?_⟩
    · rw [strips_trim] at h2; exact stripPrefix_some.2 h2.symm
    · intro q hq
      cases hc : stripPrefix "branch=".toList (trim q) with
      | none => rfl
      | some t => exact absurd ((strips_trim _ _).2 (stripPrefix_some.1 hc).symm) (h3 q hq t)

theorem goodBranch_iff (b : Str) : isValidBranch b = true ↔ GoodBranch b := by
  have hch : ∀ c, isBranchChar c = true ↔ ((65 ≤ c.toNat ∧ c.toNat ≤ 90) ∨ (97 ≤ c.toNat ∧ c.toNat ≤ 122) ∨
      (48 ≤ c.toNat ∧ c.toNat ≤ 57) ∨ c ∈ "-.!%*_+`'~".toList) := by
    intro c
    simp [isBranchChar, isAlnum_iff, char_eq_iff]
    omega
  have hctl : ∀ c, isBranchChar c = true → isAsciiControl c = false := by
    intro c hc
    rw [hch] at hc
    have : ¬ (isAsciiControl c = true) := by
      simp only [isAsciiControl, Bool.or_eq_true, decide_eq_true_eq, beq_iff_eq]
      simp [char_eq_iff] at hc
      omega
    simpa using this
  have hlen : ∀ s : Str, s.length ≤ utf8Len s := by
    intro s
    induction s with
    | nil => simp
    | cons c s ih =>
      have := c.utf8Size_pos
      simp only [utf8Len, List.map_cons, List.sum_cons, List.length_cons] at ih ⊢
      omega
  unfold isValidBranch GoodBranch
  simp only [Bool.and_eq_true, Bool.not_eq_true', decide_eq_false_iff_not, List.all_eq_true, Nat.not_lt]
  constructor
  · rintro ⟨⟨⟨⟨h1, h2⟩, h3⟩, _⟩, h5⟩
    obtain ⟨t, rfl⟩ := List.isPrefixOf_iff_prefix.1 h3
    refine ⟨⟨t, ?_, rfl⟩, h2, fun c hc => (hch c).1 (h5 c hc)⟩
    rintro rfl
    revert h1; decide
  · rintro ⟨⟨t, ht, rfl⟩, h2, h3⟩
    refine ⟨⟨⟨⟨?_, h2⟩, List.isPrefixOf_iff_prefix.2 ⟨t, rfl⟩⟩, ?_⟩, fun c hc => (hch c).2 (h3 c hc)⟩
    · have := hlen ("z9hG4bK".toList ++ t)
      have h7 : "z9hG4bK".toList.length = 7 := rfl
      rw [List.length_append, h7] at this
      cases t with
      | nil => exact absurd rfl ht
      | cons c t => rw [List.length_cons] at this; omega
    · rw [List.any_eq_false]
      intro c hc
      simp [hctl c ((hch c).2 (h3 c hc))]

theorem first_iff (hs : Headers) (n : String) (v : Str) : hs.get n.toList = some v ↔ First hs.inner n v := get_iff hs _ v

theorem branches_iff (hs : Headers) : branchOk hs = true ↔ Branches hs.inner := by
  unfold branchOk Branches
  constructor
  · intro h via b t h1 h2 h3
    rw [← first_iff] at h1
    rw [← branchOf_iff] at h2
    rw [strips_trim] at h3
    rw [h1] at h
    simp only [h2] at h
    rw [h3]
    exact (goodBranch_iff _).1 h
  · intro h
    cases hv : hs.get "Via".toList with
    | none => rfl
    | some via =>
      simp only
      cases hb : viaBranch via with
      | none => rfl
      | some b =>
        simp only
        exact (goodBranch_iff _).2 (h via b (trim b) ((first_iff _ _ _).1 hv) ((branchOf_iff _ _).1 hb) ((strips_trim _ _).2 rfl))

theorem parseCseq_iff (v : Str) (n : Nat) (w : Str) : parseCseq v = some (n, w) ↔
    ∃ num, Words v [num, w] ∧ DecDigits num n ∧ 1 ≤ n ∧ n ≤ 2 ^ 31 - 1 := by
  unfold parseCseq MAX_CSEQ_NUMBER
  constructor
  · intro h
    split at h
    · rename_i num meth hw
      split at h
      · cases h
      rename_i hc
      split at h
      · cases h
      rename_i k hk
      split at h
      · cases h
      rename_i hr
      cases h
      simp only [Bool.or_eq_true, Bool.not_eq_true', not_or, Bool.not_eq_true, Bool.not_eq_false, List.all_eq_true] at hc
      refine ⟨num, (words_iff _ _).2 hw, ?_, by omega, by omega⟩
      rw [parseDec_iff] at hk
      rcases hk.1 with h | ⟨r, rfl, _⟩
      · exact h
      · exact absurd (hc.2 '+' (by simp)) (by decide)
    · cases h
  · rintro ⟨num, h1, h2, h3, h4⟩
    rw [(words_iff _ _).1 h1]
    simp only
    have hd := decDigits_chars h2
    rw [if_neg, parseDec_complete (.inl h2) (by omega)]
    · simp only
      rw [if_neg (by omega)]
    · simp only [Bool.or_eq_true, Bool.not_eq_true', not_or, Bool.not_eq_true, Bool.not_eq_false, List.all_eq_true]
      exact ⟨by simpa using decDigits_ne h2, hd⟩

theorem cseqMatches_iff (hs : Headers) (m : Method) : cseqMatches hs m = some true ↔
    CSeqs hs.inner (fun w => SameName m.asStr w) := by
  unfold cseqMatches CSeqs
  constructor
  · intro h v hv
    rw [← first_iff] at hv
    rw [hv] at h
    simp only at h
    split at h
    · cases h
    rename_i n w hp
    obtain ⟨num, h1, h2, h3, h4⟩ := (parseCseq_iff _ _ _).1 hp
    exact ⟨num, w, n, h1, h2, h3, h4, (sameName_iff _ _).2 (by simpa using h)⟩
  · intro h
    cases hv : hs.get "CSeq".toList with
    | none => rfl
    | some v =>
      obtain ⟨num, w, n, h1, h2, h3, h4, h5⟩ := h v ((first_iff _ _ _).1 hv)
      simp only
      rw [(parseCseq_iff v n w).2 ⟨num, h1, h2, h3, h4⟩]
      simp only [Option.some.injEq]
      exact (sameName_iff _ _).1 h5

theorem responseCseq_iff (hs : Headers) : validateResponseCseq hs = true ↔ CSeqs hs.inner (fun _ => True) := by
  unfold validateResponseCseq CSeqs
  constructor
  · intro h v hv
    rw [← first_iff] at hv
    rw [hv] at h
    simp only at h
    obtain ⟨⟨n, w⟩, hp⟩ := Option.isSome_iff_exists.1 h
    obtain ⟨num, h1, h2, h3, h4⟩ := (parseCseq_iff _ _ _).1 hp
    exact ⟨num, w, n, h1, h2, h3, h4, trivial⟩
  · intro h
    cases hv : hs.get "CSeq".toList with
    | none => rfl
    | some v =>
      obtain ⟨num, w, n, h1, h2, h3, h4, h5⟩ := h v ((first_iff _ _ _).1 hv)
      simp only
      rw [(parseCseq_iff v n w).2 ⟨num, h1, h2, h3, h4⟩]
      rfl

/-! ## Bodies -/

theorem lengthText_iff (v : Str) (n : Nat) : LengthText v n ↔ parseDec (2 ^ 64 - 1) (trim v) = some n := by
  unfold LengthText
  rw [parseDec_iff]
  constructor
  · rintro ⟨t, h1, h2, h3⟩
    rw [strips_trim] at h1
    subst h1
    exact ⟨h2, by omega⟩
  · rintro ⟨h1, h2⟩
    exact ⟨trim v, (strips_trim _ _).2 rfl, h1, by omega⟩

theorem lengthText_unique {v : Str} {n m : Nat} (h : LengthText v n) (h' : LengthText v m) : n = m := by
  rw [lengthText_iff] at h h'
  rw [h] at h'
  simpa using h'

theorem length_ok (v : Str) (n : Nat) : parseContentLength v = .ok n ↔ LengthText v n ∧ n ≤ 67108864 := by
  rw [lengthText_iff]
  unfold parseContentLength MAX_CONTENT_LENGTH
  cases parseDec (2 ^ 64 - 1) (trim v) with
  | none => simp
  | some k =>
    simp only [Option.some.injEq]
    by_cases hk : k > 64 * 1024 * 1024
    · rw [if_pos hk]; simp; omega
    · rw [if_neg hk]; simp; omega

theorem length_oversized (v : Str) : parseContentLength v = .error .oversized ↔ ∃ n, LengthText v n ∧ 67108864 < n := by
  simp only [lengthText_iff]
  unfold parseContentLength MAX_CONTENT_LENGTH
  cases parseDec (2 ^ 64 - 1) (trim v) with
  | none => simp
  | some k =>
    simp only [Option.some.injEq]
    by_cases hk : k > 64 * 1024 * 1024
    · rw [if_pos hk]; simp; omega
    · rw [if_neg hk]; simp; omega

theorem length_invalid (v : Str) : parseContentLength v = .error .invalid ↔ ∀ n, ¬ LengthText v n := by
  simp only [lengthText_iff]
  unfold parseContentLength MAX_CONTENT_LENGTH
  cases parseDec (2 ^ 64 - 1) (trim v) with
  | none => simp
  | some k =>
    simp only [Option.some.injEq]
    by_cases hk : k > 64 * 1024 * 1024
    · rw [if_pos hk]; simp
    · rw [if_neg hk]; simp

/-- The length that the readable values give, starting from `first`. -/
theorem agreed_iff : ∀ (vs : List Str) (first : Option Nat) (res : Option Nat), agreedLength first vs = some res ↔
    (∀ v ∈ vs, ∀ n, LengthText v n → n ≤ 67108864 ∧ res = some n) ∧
      (∀ n, first = some n → res = some n) ∧ (∀ n, res = some n → first = some n ∨ ∃ v ∈ vs, LengthText v n)
  | [], first, res => by
    simp only [agreedLength, Option.some.injEq]
    constructor
    · rintro rfl; simp
    · rintro ⟨_, h1, h2⟩
      cases first with
      | none =>
        cases res with
        | none => rfl
        | some n => have := h2 n rfl; simp at this
      | some n => exact (h1 n rfl).symm
  | v :: vs, first, res => by
    rw [agreedLength]
    cases hp : parseContentLength v with
    | error e =>
      cases e with
      | oversized =>
        obtain ⟨n, h1, h2⟩ := (length_oversized v).1 hp
        simp only [reduceCtorEq, false_iff]
        rintro ⟨h, _⟩
        have := (h v (by simp) n h1).1
        omega
      | invalid =>
        have hv := (length_invalid v).1 hp
        simp only
        rw [agreed_iff vs first res]
        constructor
        · rintro ⟨h1, h2, h3⟩
          refine ⟨?_, h2, ?_⟩
          · intro u hu n hn
            rcases List.mem_cons.1 hu with rfl | hu
            · exact absurd hn (hv n)
            · exact h1 u hu n hn
          · intro n hn
            rcases h3 n hn with h | ⟨u, hu, h⟩
            · exact .inl h
            · exact .inr ⟨u, List.mem_cons_of_mem _ hu, h⟩
        · rintro ⟨h1, h2, h3⟩
          refine ⟨fun u hu => h1 u (List.mem_cons_of_mem _ hu), h2, ?_⟩
          intro n hn
          rcases h3 n hn with h | ⟨u, hu, h⟩
          · exact .inl h
          · rcases List.mem_cons.1 hu with rfl | hu
            · exact absurd h (hv n)
            · exact .inr ⟨u, hu, h⟩
    | ok k =>
      obtain ⟨hk1, hk2⟩ := (length_ok v k).1 hp
      simp only
      have step : (agreedLength (some k) vs = some res) ↔ ((∀ u ∈ v :: vs, ∀ n, LengthText u n → n ≤ 67108864 ∧ res = some n) ∧
          (∀ n, res = some n → some k = some n ∨ ∃ u ∈ v :: vs, LengthText u n)) := by
        rw [agreed_iff vs (some k) res]
        constructor
        · rintro ⟨h1, h2, h3⟩
          refine ⟨?_, ?_⟩
          · intro u hu n hn
            rcases List.mem_cons.1 hu with rfl | hu
            · have := lengthText_unique hk1 hn; subst this
              exact ⟨hk2, h2 k rfl⟩
            · exact h1 u hu n hn
          · intro n hn
            rcases h3 n hn with h | ⟨u, hu, h⟩
            · exact .inl h
            · exact .inr ⟨u, List.mem_cons_of_mem _ hu, h⟩
        · rintro ⟨h1, h2⟩
          have hres := (h1 v (by simp) k hk1).2
          subst hres
          refine ⟨fun u hu => h1 u (List.mem_cons_of_mem _ hu), fun n hn => hn, fun n hn => .inl hn⟩
      cases first with
      | none =>
        simp only
        rw [step]
        constructor
        · rintro ⟨h1, h2⟩
          refine ⟨h1, by simp, fun n hn => .inr ?_⟩
          rcases h2 n hn with h | h
          · cases h; exact ⟨v, by simp, hk1⟩
          · exact h
        · rintro ⟨h1, _, h3⟩
          refine ⟨h1, fun n hn => ?_⟩
          rcases h3 n hn with h | h
          · cases h
          · exact .inr h
      | some old =>
        simp only
        by_cases ho : old ≠ k
        · rw [if_pos ho]
          simp only [reduceCtorEq, false_iff]
          rintro ⟨h1, h2, _⟩
          have a := (h1 v (by simp) k hk1).2
          have b := h2 old rfl
          rw [a] at b
          exact ho (by simpa using b.symm)
        · have ho : old = k := by simpa using ho
          subst ho
          rw [if_neg (by simp), step]
          constructor
          · rintro ⟨h1, h2⟩
            exact ⟨h1, fun n hn => by cases hn; exact (h1 v (by simp) _ hk1).2, h2⟩
          · rintro ⟨h1, _, h3⟩; exact ⟨h1, h3⟩

/-- One value or none are the same as several. -/
theorem extractBody_agreed (rest : Bytes) (hs : Headers) : extractBody rest hs =
    match agreedLength none (hs.getAll "Content-Length".toList) with
    | none => none
    | some (some n) => if n > rest.length then none else some (rest.take n)
    | some none => some rest := by
  unfold extractBody
  cases hg : hs.getAll "Content-Length".toList with
  | nil => simp [agreedLength]
  | cons v vs =>
    cases vs with
    | nil =>
      simp only [agreedLength]
      cases hp : parseContentLength v with
      | ok n => simp
      | error e => cases e <;> simp
    | cons w vs =>
      simp only
      cases agreedLength none (v :: w :: vs) with
      | none => rfl
      | some r => cases r <;> simp

theorem body_iff (rest body : Bytes) (hs : Headers) : extractBody rest hs = some body ↔ Body hs.inner rest body := by
  rw [extractBody_agreed]
  unfold Body
  have hsel := C24_getAll hs "Content-Length".toList
  generalize hs.getAll "Content-Length".toList = vs at hsel
  constructor
  · intro h
    refine ⟨vs, hsel, ?_⟩
    cases ha : agreedLength none vs with
    | none => rw [ha] at h; cases h
    | some r =>
      obtain ⟨h1, _, h3⟩ := (agreed_iff vs none r).1 ha
      refine ⟨fun v hv n hn => (h1 v hv n hn).1, ?_⟩
      rw [ha] at h
      cases r with
      | some n =>
        simp only at h
        split at h
        · cases h
        cases h
        rcases h3 n rfl with h | h
        · cases h
        · exact .inl ⟨n, by omega, h, fun v hv m hm => by have := (h1 v hv m hm).2; simpa using this.symm, rfl⟩
      | none =>
        cases h
        exact .inr ⟨fun v hv n hn => (by have := (h1 v hv n hn).2; cases this), rfl⟩
  · rintro ⟨vs', hsel', hmax, hb⟩
    have := selects_unique hsel' hsel
    subst this
    rcases hb with ⟨n, hn, ⟨v, hv, hvn⟩, hall, rfl⟩ | ⟨hno, rfl⟩
    · rw [(agreed_iff vs' none (some n)).2 ⟨fun u hu m hm => ⟨hmax u hu m hm, by rw [hall u hu m hm]⟩, by simp, fun m hm => by
        cases hm; exact .inr ⟨v, hv, hvn⟩⟩]
      simp only
      rw [if_neg (by omega)]
    · rw [(agreed_iff vs' none none).2 ⟨fun u hu m hm => absurd hm (hno u hu m), by simp, by simp⟩]

theorem strict_iff : ∀ (vs : List Str) (len res : Option Nat), strictLength len vs = some res ↔
    (∀ v ∈ vs, ∃ n, LengthText v n ∧ n ≤ 67108864 ∧ res = some n) ∧ (∀ n, len = some n → res = some n) ∧
      (vs = [] → res = len)
  | [], len, res => by
    simp only [strictLength, Option.some.injEq]
    constructor
    · rintro rfl; simp
    · rintro ⟨_, _, h⟩; exact (h trivial).symm
  | v :: vs, len, res => by
    rw [strictLength]
    cases hp : parseContentLength v with
    | error e =>
      simp only [reduceCtorEq, false_iff]
      rintro ⟨h, _⟩
      obtain ⟨n, h1, h2, _⟩ := h v (by simp)
      rw [(length_ok v n).2 ⟨h1, h2⟩] at hp
      cases hp
    | ok k =>
      obtain ⟨hk1, hk2⟩ := (length_ok v k).1 hp
      simp only
      have step : strictLength (some k) vs = some res ↔ ∀ u ∈ v :: vs, ∃ n, LengthText u n ∧ n ≤ 67108864 ∧ res = some n := by
        rw [strict_iff vs (some k) res]
        constructor
        · rintro ⟨h1, h2, _⟩ u hu
          rcases List.mem_cons.1 hu with rfl | hu
          · exact ⟨k, hk1, hk2, h2 k rfl⟩
          · exact h1 u hu
        · intro h
          obtain ⟨n, h1, _, h3⟩ := h v (by simp)
          have := lengthText_unique hk1 h1
          subst this
          exact ⟨fun u hu => h u (List.mem_cons_of_mem _ hu), fun n hn => by cases hn; exact h3, fun _ => h3⟩
      cases len with
      | none =>
        simp only
        rw [step]
        constructor
        · intro h; exact ⟨h, by simp, by simp⟩
        · rintro ⟨h, _⟩; exact h
      | some old =>
        simp only
        by_cases ho : old ≠ k
        · rw [if_pos ho]
          simp only [reduceCtorEq, false_iff]
          rintro ⟨h1, h2, _⟩
          obtain ⟨n, a1, _, a3⟩ := h1 v (by simp)
          have b := h2 old rfl
          have := lengthText_unique hk1 a1
          subst this
          rw [a3] at b
          exact ho (by simpa using b.symm)
        · have ho : old = k := by simpa using ho
          subst ho
          rw [if_neg (by simp), step]
          constructor
          · intro h
            refine ⟨h, fun n hn => ?_, by simp⟩
            cases hn
            obtain ⟨n, a1, _, a3⟩ := h v (by simp)
            rw [lengthText_unique hk1 a1]; exact a3
          · rintro ⟨h, _⟩; exact h

theorem strictBody_iff (rest body : Bytes) (hs : Headers) :
    (declaredStrict rest hs).bind (extractBodyStrict rest) = some body ↔ StrictBody hs.inner rest body := by
  unfold declaredStrict StrictBody extractBodyStrict
  have hsel := C24_getAll hs "Content-Length".toList
  generalize hs.getAll "Content-Length".toList = vs at hsel
  constructor
  · intro h
    cases ha : strictLength none vs with
    | none => rw [ha] at h; cases h
    | some r =>
      rw [ha] at h
      obtain ⟨h1, _, h3⟩ := (strict_iff vs none r).1 ha
      cases r with
      | some n =>
        simp only [Option.bind_some] at h
        split at h
        · cases h
        rename_i hn
        have hn : n = rest.length := by simpa using hn
        cases h
        refine ⟨rfl, vs, hsel, ?_, ?_⟩
        · intro v hv
          obtain ⟨m, a, b, c⟩ := h1 v hv
          cases c
          rw [← hn]
          exact ⟨a, b⟩
        · intro e; have := h3 e; cases this
      | none =>
        simp only at h
        split at h
        · rename_i hr
          have hr : rest = [] := by simpa using hr
          subst hr
          simp at h
          subst h
          refine ⟨rfl, vs, hsel, ?_, fun _ => rfl⟩
          intro v hv
          obtain ⟨m, _, _, c⟩ := h1 v hv
          cases c
        · cases h
  · rintro ⟨rfl, vs', hsel', hall, hnil⟩
    have := selects_unique hsel' hsel
    subst this
    cases vs' with
    | nil =>
      rw [hnil rfl]
      rfl
    | cons v vs =>
      rw [(strict_iff (v :: vs) none (some body.length)).2 ⟨fun u hu => ⟨_, (hall u hu).1, (hall u hu).2, rfl⟩, by simp, by simp⟩]
      simp

/-! ## The parts before the body -/

theorem splits_iff (d : Bytes) (max : Nat) (hs : Headers) (rest : Bytes) (P : Str → Prop)
    (hP : ∀ l, P (trim l) ↔ P l) (hP0 : ¬ P []) :
    (∃ f lines, splitMessage d max = some (f, lines, rest) ∧ parseHeaders lines Headers.empty = some hs ∧ P f) ↔
      ∃ first, Splits d max first hs.inner rest ∧ P first := by
  unfold splitMessage Splits
  constructor
  · rintro ⟨f, lines, h, hh, hp⟩
    split at h
    · cases h
    rename_i hmax
    split at h
    · cases h
    rename_i head rest' hhb
    split at h
    · cases h
    rename_i l ls hsp
    split at h
    · cases h
    cases h
    obtain ⟨fs, h1, h2, h3⟩ := (headers_iff _ _ _ (by simp [Headers.empty])).1 hh
    have h2 : hs.inner = fs := by simpa [Headers.empty] using h2
    rw [h2] at h3 ⊢
    exact ⟨l, ⟨by omega, head, lines, (headBody_iff _ _ _).1 hhb, (lines_iff _ _).2 hsp, h1, h3⟩, (hP l).1 hp⟩
  · rintro ⟨l, ⟨hmax, head, lines, h1, h2, h3, h4⟩, hp⟩
    rw [← headBody_iff] at h1
    rw [lines_iff] at h2
    have hne : trim l ≠ [] := by
      intro e
      exact hP0 (by rw [← e]; exact (hP l).2 hp)
    rw [if_neg (by omega), h1]
    simp only
    rw [h2]
    simp only
    rw [if_neg (by simpa using hne)]
    refine ⟨trim l, lines, rfl, ?_, (hP l).2 hp⟩
    exact (headers_iff _ _ _ (by simp [Headers.empty])).2 ⟨hs.inner, h3, by simp [Headers.empty], h4⟩

theorem trim_trim (s : Str) : trim (trim s) = trim s := by
  have h := strips_stripBoth isWs s
  obtain ⟨_, _, _, _, _, h1, h2⟩ := h
  exact trim_of_trimmed _ ⟨h1, h2⟩

end Siphon.Parse
