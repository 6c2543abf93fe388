import Verif.Identity.ReadLemmas
import Verif.Auth.LemmasText
/-!
# Tokens and headers are read exactly as the grammar says (C109)
-/
namespace Siphon.Ident
open Spec
open TextSpec (DecDigits Strips Pieces)

/-! ## Records -/

theorem says_iff (kvs : List (Option Str × Json)) (n : Str) (v : Option Json) :
    Says kvs n v ↔ (kvs.filter (fun p => decide (p.1 = some n))).length ≤ 1 ∧
      v = (kvs.find? (fun p => decide (p.1 = some n))).map (·.2) := by
  constructor
  · intro h
    cases v with
    | none =>
      have h : ∀ p ∈ kvs, p.1 ≠ some n := h
      have e1 : kvs.filter (fun p => decide (p.1 = some n)) = [] := by
        rw [List.filter_eq_nil_iff]; intro p hp; simpa using h p hp
      have e2 : kvs.find? (fun p => decide (p.1 = some n)) = none := by
        rw [List.find?_eq_none]; intro p hp; simpa using h p hp
      rw [e1, e2]; exact ⟨by simp, rfl⟩
    | some v =>
      obtain ⟨a, b, rfl, h⟩ := h
      have e1 : ∀ l : List (Option Str × Json), (∀ p ∈ l, p ∈ a ++ b) → l.filter (fun p => decide (p.1 = some n)) = [] := by
        intro l hl
        rw [List.filter_eq_nil_iff]; intro p hp; simpa using h p (hl p hp)
      have e2 : a.find? (fun p => decide (p.1 = some n)) = none := by
        rw [List.find?_eq_none]; intro p hp; simpa using h p (by simp [hp])
      rw [List.filter_append, List.filter_cons, e1 a (by intro p hp; simp [hp]), e1 b (by intro p hp; simp [hp]), List.find?_append, e2]
      simp
  · rintro ⟨h1, rfl⟩
    cases hf : kvs.find? (fun p => decide (p.1 = some n)) with
    | none =>
      rw [List.find?_eq_none] at hf
      intro p hp
      simpa using hf p hp
    | some p =>
      obtain ⟨hp, a, b, rfl, ha⟩ := List.find?_eq_some_iff_append.1 hf
      obtain ⟨k, v⟩ := p
      have hk : k = some n := by simpa using hp
      subst hk
      refine ⟨a, b, rfl, ?_⟩
      intro q hq
      rcases List.mem_append.1 hq with hq | hq
      · simpa using ha q hq
      · intro he
        rw [List.filter_append, List.filter_cons] at h1
        simp only [decide_true, if_true, List.length_append, List.length_cons] at h1
        have : q ∈ b.filter (fun p => decide (p.1 = some n)) := by
          rw [List.mem_filter]; exact ⟨hq, by simpa using he⟩
        have := List.length_pos_of_mem this
        omega

theorem structFields_iff (names : List String) (j : Json) (vs : List (Option Json)) :
    structFields names j = some vs ↔ Fields names j vs := by
  constructor
  · intro h
    unfold structFields at h
    split at h
    · rename_i kvs
      split at h
      · cases h
      · rename_i h1
        split at h
        · cases h
        · rename_i h2
          cases h
          refine .object ?_ (by simp) ?_
          · intro p hp
            cases hs : p.1 with
            | none => exact absurd (List.any_eq_true.2 ⟨p, hp, by rw [hs]; rfl⟩) h1
            | some s => exact ⟨s, rfl⟩
          · intro i n v hn hv
            rw [List.getElem?_map, hn] at hv
            cases hv
            rw [says_iff]
            refine ⟨?_, rfl⟩
            apply Nat.le_of_not_lt
            intro hlt
            exact h2 (List.any_eq_true.2 ⟨n, List.mem_of_getElem? hn, decide_eq_true hlt⟩)
    · rename_i xs
      split at h
      · cases h
      · rename_i h1
        cases h
        exact .array (by omega)
    · cases h
  · intro h
    cases h with
    | @object kvs vs h1 h2 h3 =>
      unfold structFields
      simp only
      have n1 : ¬ (kvs.any fun p => p.1.isNone) = true := by
        rw [List.any_eq_true]
        rintro ⟨p, hp, hn⟩
        obtain ⟨s, hs⟩ := h1 p hp
        rw [hs] at hn; cases hn
      have key : ∀ (i : Nat) (n : String), names[i]? = some n → ∃ v, vs[i]? = some v ∧ Says kvs n.toList v := by
        intro i n hn
        have hi : i < names.length := by
          rcases Nat.lt_or_ge i names.length with h | h
          · exact h
          · rw [List.getElem?_eq_none h] at hn; cases hn
        have := List.getElem?_eq_getElem (l := vs) (i := i) (by omega)
        exact ⟨_, this, h3 i n _ hn this⟩
      rw [if_neg n1, if_neg]
      · congr 1
        apply List.ext_getElem?
        intro i
        rw [List.getElem?_map]
        cases hn : names[i]? with
        | none =>
          rw [List.getElem?_eq_none_iff] at hn
          rw [List.getElem?_eq_none (by omega)]; rfl
        | some n =>
          obtain ⟨v, hv, hs⟩ := key i n hn
          rw [hv, ((says_iff _ _ _).1 hs).2]; rfl
      · rw [List.any_eq_true]
        rintro ⟨n, hn, hlt⟩
        obtain ⟨i, hi⟩ := List.mem_iff_getElem?.1 hn
        obtain ⟨v, _, hs⟩ := key i n hi
        have := ((says_iff _ _ _).1 hs).1
        have := of_decide_eq_true hlt
        omega
    | @array xs k h1 =>
      unfold structFields
      simp only
      rw [if_neg (by omega), show names.length - xs.length = k by omega]

theorem fields_length {names : List String} {j : Json} {vs : List (Option Json)} (h : Fields names j vs) : vs.length = names.length := by
  cases h with
  | object _ h _ => exact h
  | array h => simp; omega

theorem optText_iff (j : Option Json) (s : Option Str) : OptText j s ↔ asOptString j = some s := by
  constructor
  · intro h; cases h <;> rfl
  · intro h
    unfold asOptString at h
    split at h
    · cases h; exact .absent
    · cases h; exact .null
    · cases h; exact .text
    · cases h

theorem optInt_iff (j : Option Json) (n : Option Int) : OptInt j n ↔ asOptI64 j = some n := by
  constructor
  · intro h
    cases h with
    | absent => rfl
    | null => rfl
    | int h1 h2 =>
      show (if _ then _ else _) = _
      rw [if_pos (by constructor <;> omega)]
  · intro h
    unfold asOptI64 at h
    split at h
    · cases h; exact .absent
    · cases h; exact .null
    · split at h
      · cases h; exact .int (by omega) (by omega)
      · cases h
    · cases h

theorem asStrings_iff : ∀ (xs : List Json) (l : List Str), asStrings xs = some l ↔ xs = l.map (fun s => .str (some s))
  | [], l => by
    constructor
    · intro h; cases h; rfl
    · intro h
      cases l with
      | nil => rfl
      | cons a l => cases h
  | x :: t, l => by
    constructor
    · intro h
      unfold asStrings at h
      split at h
      · rename_i heq; cases heq
      · rename_i s t' heq
        cases heq
        simp only [Option.map_eq_some_iff] at h
        obtain ⟨l', h1, rfl⟩ := h
        rw [(asStrings_iff t l').1 h1]; rfl
      · cases h
    · intro h
      cases l with
      | nil => cases h
      | cons a l =>
        simp only [List.map_cons, List.cons.injEq] at h
        obtain ⟨rfl, h⟩ := h
        rw [asStrings, (asStrings_iff t l).2 h]; rfl

theorem fields_null {names : List String} {vs : List (Option Json)} : ¬ Fields names .null vs := by intro h; cases h

theorem orig_iff (j : Option Json) (s : Option Str) : OrigOf j s ↔ ∃ x, rawOrig j = some x ∧ x.bind id = s := by
  constructor
  · intro h
    cases h with
    | absent => exact ⟨none, rfl, rfl⟩
    | null => exact ⟨none, rfl, rfl⟩
    | @given j v s h1 h2 =>
      rw [optText_iff] at h2
      refine ⟨some s, ?_, rfl⟩
      rw [rawOrig, (structFields_iff _ _ _).2 h1]
      · simp [h2]
      · rintro rfl; exact fields_null h1
  · rintro ⟨x, h, rfl⟩
    unfold rawOrig at h
    split at h
    · cases h; exact .absent
    · cases h; exact .null
    · split at h
      · rename_i tn heq
        simp only [Option.map_eq_some_iff] at h
        obtain ⟨s, h1, rfl⟩ := h
        exact .given ((structFields_iff _ _ _).1 heq) ((optText_iff _ _).2 h1)
      · cases h

theorem dest_iff (j : Option Json) (l : List Str) :
    DestOf j l ↔ ∃ x, rawDest j = some x ∧ (match x.bind id with | some l => l | none => []) = l := by
  constructor
  · intro h
    cases h with
    | absent => exact ⟨none, rfl, rfl⟩
    | null => exact ⟨none, rfl, rfl⟩
    | @noTn j h1 =>
      refine ⟨some none, ?_, rfl⟩
      rw [rawDest, (structFields_iff _ _ _).2 h1]
      · rfl
      · rintro rfl; exact fields_null h1
    | @nullTn j h1 =>
      refine ⟨some none, ?_, rfl⟩
      rw [rawDest, (structFields_iff _ _ _).2 h1]
      · rfl
      · rintro rfl; exact fields_null h1
    | @given j l h1 =>
      refine ⟨some (some l), ?_, rfl⟩
      rw [rawDest, (structFields_iff _ _ _).2 h1]
      · simp only [asOptStrings]
        rw [(asStrings_iff _ _).2 rfl]; rfl
      · rintro rfl; exact fields_null h1
  · rintro ⟨x, h, rfl⟩
    unfold rawDest at h
    split at h
    · cases h; exact .absent
    · cases h; exact .null
    · split at h
      · rename_i tn heq
        have hf := (structFields_iff _ _ _).1 heq
        simp only [Option.map_eq_some_iff] at h
        obtain ⟨s, h1, rfl⟩ := h
        unfold asOptStrings at h1
        split at h1
        · cases h1; exact .noTn hf
        · cases h1; exact .nullTn hf
        · rename_i xs
          simp only [Option.map_eq_some_iff] at h1
          obtain ⟨l, h2, rfl⟩ := h1
          rw [asStrings_iff] at h2
          subst h2
          exact .given hf
        · cases h1
      · cases h

theorem attest_iff (s : Str) (a : Attest) : Attest.parse s = some a ↔ AttestOf (some s) (some a) := by
  constructor
  · intro h
    unfold Attest.parse at h
    split at h
    · rename_i e; cases h; rw [e]; exact .a
    · split at h
      · rename_i e; cases h; rw [e]; exact .b
      · split at h
        · rename_i e; cases h; rw [e]; exact .c
        · cases h
  · intro h; cases h <;> decide

theorem header_iff (j : Json) (alg : Str) (typ ppt : Option Str) (x5u : Str) :
    rawHeader j = some (alg, typ, ppt, some x5u) ↔ HeaderOf j ⟨alg, typ, ppt, x5u⟩ := by
  constructor
  · intro h
    unfold rawHeader at h
    split at h
    · rename_i a b c d heq
      simp only [bind, Option.bind_eq_some_iff] at h
      obtain ⟨alg', h1, typ', h2, ppt', h3, x5u', h4, h5⟩ := h
      cases h5
      unfold asString at h1
      split at h1
      · cases h1
        have h5 : d = some (.str (some x5u)) := by
          unfold asOptString at h4
          split at h4
          · cases h4
          · cases h4
          · cases h4; rfl
          · cases h4
        subst h5
        exact ⟨b, c, (structFields_iff _ _ _).1 heq, (optText_iff _ _).2 h2, (optText_iff _ _).2 h3⟩
      · cases h1
    · cases h
  · rintro ⟨b, c, h1, h2, h3⟩
    unfold rawHeader
    rw [(structFields_iff _ _ _).2 h1]
    have h2' : asOptString b = some typ := (optText_iff _ _).1 h2
    have h3' : asOptString c = some ppt := (optText_iff _ _).1 h3
    have h4' : asOptString (some (.str (some x5u))) = some (some x5u) := rfl
    simp only [h2', h3', h4', asString, bind, Option.bind_some]

theorem claims_iff (j : Json) (a orig : Option Str) (dest : List Str) (iat : Option Int) (origid : Option Str) :
    rawClaims j = some (a, orig, dest, iat, origid) ↔
      ∃ attest orig' dest' iat' origid', Fields ["attest", "orig", "dest", "iat", "origid"] j [attest, orig', dest', iat', origid'] ∧
        OptText attest a ∧ OrigOf orig' orig ∧ DestOf dest' dest ∧ OptInt iat' iat ∧ OptText origid' origid := by
  constructor
  · intro h
    unfold rawClaims at h
    split at h
    · rename_i x1 x2 x3 x4 x5 heq
      simp only [bind, Option.bind_eq_some_iff] at h
      obtain ⟨a', h1, o', h2, d', h3, i', h4, id', h5, h6⟩ := h
      cases h6
      exact ⟨x1, x2, x3, x4, x5, (structFields_iff _ _ _).1 heq, (optText_iff _ _).2 h1, (orig_iff _ _).2 ⟨o', h2, rfl⟩,
        (dest_iff _ _).2 ⟨d', h3, rfl⟩, (optInt_iff _ _).2 h4, (optText_iff _ _).2 h5⟩
    · cases h
  · rintro ⟨x1, x2, x3, x4, x5, h0, h1, h2, h3, h4, h5⟩
    obtain ⟨o', h2', rfl⟩ := (orig_iff _ _).1 h2
    obtain ⟨d', h3', rfl⟩ := (dest_iff _ _).1 h3
    unfold rawClaims
    rw [(structFields_iff _ _ _).2 h0]
    simp only [(optText_iff _ _).1 h1, h2', h3', (optInt_iff _ _).1 h4, (optText_iff _ _).1 h5, bind, Option.bind_some]
    rfl

/-! ## Tokens -/

theorem utf8_dot (p c : Str) : utf8 (p ++ '.' :: c) = utf8 p ++ 46 :: utf8 c := by
  rw [utf8_append]
  rfl

theorem split_token (p c s : Str) (h1 : '.' ∉ p) (h2 : '.' ∉ c) (h3 : '.' ∉ s) : splitChar '.' (p ++ '.' :: c ++ '.' :: s) = [p, c, s] := by
  have e : p ++ '.' :: c ++ '.' :: s = p ++ '.' :: (c ++ '.' :: s) := by simp
  rw [e, splitChar_append_sep _ _ _ h1, splitChar_append_sep _ _ _ h2, splitChar_of_not_mem _ _ h3]

theorem token_of_split {t p c s : Str} (h : splitChar '.' t = [p, c, s]) : t = p ++ '.' :: c ++ '.' :: s := by
  have := (join_splitChar '.' t).1
  rw [h] at this
  rw [← this]
  simp [TextSpec.join]

theorem base64_no_dot {t : Str} {bs : Bytes} (h : Base64 t bs) : '.' ∉ t := fun hm => (base64_plain h '.' hm).1 rfl

/-- A token is accepted exactly when it is one, and is read as what it says. -/
theorem decode_iff (t : Str) (p : Passport) : Passport.decode t = .ok p ↔ IsToken t p := by
  constructor
  · intro h
    unfold Passport.decode at h
    split at h
    · rename_i a b s hs
      split at h
      · cases h
      rename_i hj h1
      split at h
      · cases h
      rename_i cj h2
      split at h
      · cases h
      rename_i sig h3
      split at h
      · cases h
      rename_i alg typ ppt x5u h4
      split at h
      · cases h
      rename_i attest orig dest iat origid h5
      split at h
      · cases h
      rename_i x
      rw [Option.bind_eq_some_iff] at h4 h5
      obtain ⟨jh, h41, h42⟩ := h4
      obtain ⟨jc, h51, h52⟩ := h5
      obtain ⟨x1, x2, x3, x4, x5, c0, c1, c2, c3, c4, c5⟩ := (claims_iff _ _ _ _ _ _).1 h52
      rw [b64Decode_iff] at h1 h2 h3
      simp only at h
      split at h
      · cases h
        exact ⟨a, b, s, hj, cj, jh, jc, token_of_split hs, h1, h2, h3, (readJson_iff _ _).1 h41, (readJson_iff _ _).1 h51,
          (header_iff _ _ _ _ _).1 h42, ⟨x1, x2, x3, x4, x5, _, c0, c1, .absent, c2, c3, c4, c5⟩, (utf8_dot a b).symm⟩
      · rename_i tx
        split at h
        · cases h
        · rename_i at' hat
          cases h
          exact ⟨a, b, s, hj, cj, jh, jc, token_of_split hs, h1, h2, h3, (readJson_iff _ _).1 h41, (readJson_iff _ _).1 h51,
            (header_iff _ _ _ _ _).1 h42, ⟨x1, x2, x3, x4, x5, _, c0, c1, (attest_iff _ _).1 hat, c2, c3, c4, c5⟩, (utf8_dot a b).symm⟩
    · cases h
  · rintro ⟨a, b, s, hj, cj, jh, jc, rfl, h1, h2, h3, h4, h5, h6, ⟨x1, x2, x3, x4, x5, at', c0, c1, ca, c2, c3, c4, c5⟩, hs⟩
    obtain ⟨⟨alg, typ, ppt, x5u⟩, ⟨att, orig, dest, iat, origid⟩, si, sig⟩ := p
    have hc := (claims_iff jc at' orig dest iat origid).2 ⟨x1, x2, x3, x4, x5, c0, c1, c2, c3, c4, c5⟩
    unfold Passport.decode
    rw [split_token a b s (base64_no_dot h1) (base64_no_dot h2) (base64_no_dot h3)]
    simp only
    have h6 := (header_iff _ _ _ _ _).2 h6
    simp only [(b64Decode_iff _ _).2 h1, (b64Decode_iff _ _).2 h2, (b64Decode_iff _ _).2 h3, (readJson_iff _ _).2 h4,
      (readJson_iff _ _).2 h5, Option.bind_some, h6, hc]
    have hs' : si = utf8 a ++ 46 :: utf8 b := Eq.trans hs (utf8_dot a b)
    clear hs
    subst hs'
    cases ca with
    | absent => rfl
    | a => rfl
    | b => rfl
    | c => rfl

/-! ## Headers -/

theorem between_iff (a b : Char) (s t : Str) : between a b s = some t ↔ Between a b s t := by
  unfold Between
  constructor
  · intro h
    unfold between at h
    split at h
    · cases h
    · rename_i c u
      split at h
      · rename_i hc
        cases h
        have hne : u ≠ [] := by rintro rfl; simp at hc
        have e := List.dropLast_concat_getLast hne
        have := hc.2
        rw [List.getLast?_eq_some_getLast hne, Option.some.injEq] at this
        rw [this] at e
        rw [hc.1, List.cons_append, e]
      · cases h
  · rintro rfl
    simp [between]

theorem unquoted_iff (s t : Str) : unquote s = t ↔ Unquoted s t := by
  unfold Unquoted unquote
  simp only [← between_iff]
  cases between '"' '"' s with
  | some u => simp
  | none => simp

/-- Name and value of a parameter. -/
def param (seg : Str) : Option (Str × Str) := (splitOnce '=' (trim seg)).map (fun p => (lower (trim p.1), trim p.2))

theorem trim_idem (s : Str) : trim (trim s) = trim s :=
  ((strips_trim (trim s) (trim s)).1 (by
    obtain ⟨a, b, e, h1, h2, h3, h4⟩ := (strips_trim s (trim s)).2 rfl
    exact ⟨[], [], by simp, by simp, by simp, h3, h4⟩)).symm

theorem param_iff (seg : Str) (name : String) (v : Str) : param seg = some (name.toList, v) ↔ IsParam seg name v := by
  unfold param IsParam
  constructor
  · intro h
    simp only [Option.map_eq_some_iff] at h
    obtain ⟨⟨k', v'⟩, h1, h2⟩ := h
    rw [Prod.mk.injEq] at h2
    have hm : '=' ∈ seg := by
      have := (Auth.splitOnce_some_iff _ _ _ _).1 h1
      obtain ⟨a, b, e, _⟩ := (strips_trim seg (trim seg)).2 rfl
      rw [e, this.1]; simp
    obtain ⟨⟨k, w⟩, hs⟩ : ∃ p, splitOnce '=' seg = some p := by
      cases hs : splitOnce '=' seg with
      | some p => exact ⟨p, rfl⟩
      | none =>
        exfalso
        have : ∀ s : Str, '=' ∈ s → splitOnce '=' s ≠ none := by
          intro s
          induction s with
          | nil => intro h; cases h
          | cons x xs ih =>
            intro h
            rw [splitOnce]
            split
            · simp
            · rename_i hx
              have : '=' ∈ xs := by
                rcases List.mem_cons.1 h with h | h
                · exact absurd h.symm hx
                · exact h
              simp [ih this]
        exact this seg hm hs
    obtain ⟨e, hk⟩ := (Auth.splitOnce_some_iff _ _ _ _).1 hs
    rw [e, Auth.trim_eqn, splitOnce_append] at h1
    · cases h1
      refine ⟨k, w, trim k, e, hk, (strips_trim _ _).2 rfl, ?_, ?_⟩
      · rw [← h2.1, Auth.strips_trimStart]
      · rw [strips_trim, ← h2.2, Auth.strips_trimEnd]
    · intro hm'
      exact hk (List.dropWhile_subset _ hm')
  · rintro ⟨k, w, n, rfl, hk, h1, h2, h3⟩
    rw [strips_trim] at h1 h3
    have hk' : '=' ∉ trimStart k := fun hm' => hk (List.dropWhile_subset _ hm')
    rw [Auth.trim_eqn, splitOnce_append _ _ _ hk']
    simp only [Option.map_some]
    rw [Auth.strips_trimStart, Auth.strips_trimEnd, ← h1, h2, h3]

theorem bracketed_iff (v u : Str) (hv : trim v = v) : stripBrackets v = some u ↔ Bracketed v u := by
  unfold stripBrackets Bracketed
  rw [hv]
  simp only [Option.map_eq_some_iff, between_iff, strips_trim]
  constructor
  · rintro ⟨w, h1, rfl⟩; exact ⟨w, h1, rfl⟩
  · rintro ⟨w, h1, rfl⟩; exact ⟨w, h1, rfl⟩

/-- The value of the last parameter with the name. -/
def lastOf (name : String) : List Str → Option Str
  | [] => none
  | p :: t =>
    match lastOf name t with
    | some v => some v
    | none =>
      match param p with
      | some (k, v) => if k = name.toList then some v else none
      | none => none

theorem named_iff (name : String) (p v : Str) :
    (match param p with
      | some (k, v) => if k = name.toList then some v else none
      | none => none) = some v ↔ IsParam p name v := by
  rw [← param_iff]
  cases param p with
  | none => simp
  | some kv =>
    obtain ⟨k, w⟩ := kv
    simp only [Option.some.injEq, Prod.mk.injEq]
    split
    · rename_i h; simp [h]
    · rename_i h; simp [h]

theorem lastParam_iff (name : String) : ∀ (l : List Str) (v : Option Str), LastParam l name v ↔ lastOf name l = v
  | [], v => by
    constructor
    · intro h
      cases v with
      | none => rfl
      | some v => obtain ⟨a, p, b, e, _⟩ := h; simp at e
    · rintro rfl
      intro q hq; cases hq
  | p :: t, v => by
    have hn : ∀ w, lastOf name t = some w → LastParam t name (some w) := fun w h => (lastParam_iff name t (some w)).2 h
    have h0 : lastOf name t = none → ∀ q ∈ t, ∀ w, ¬ IsParam q name w := fun h => (lastParam_iff name t none).2 h
    have uniq : ∀ l v v', LastParam l name v → LastParam l name v' → v = v' := by
      intro l v v' h h'
      cases v with
      | none =>
        cases v' with
        | none => rfl
        | some w => obtain ⟨a, p, b, rfl, hp, _⟩ := h'; exact absurd hp (h p (by simp) w)
      | some u =>
        obtain ⟨a, p, b, rfl, hp, hb⟩ := h
        cases v' with
        | none => exact absurd hp (h' p (by simp) u)
        | some w =>
          obtain ⟨a', p', b', e, hp', hb'⟩ := h'
          rw [List.append_eq_append_iff] at e
          rcases e with ⟨c, e1, e2⟩ | ⟨c, e1, e2⟩
          · cases c with
            | nil =>
              simp at e2
              obtain ⟨rfl, rfl⟩ := e2
              rw [← param_iff] at hp hp'
              rw [hp] at hp'; cases hp'; rfl
            | cons x c =>
              simp at e2
              obtain ⟨rfl, e2⟩ := e2
              exact absurd hp' (hb p' (by rw [e2]; simp) w)
          · cases c with
            | nil =>
              simp at e2
              obtain ⟨rfl, rfl⟩ := e2
              rw [← param_iff] at hp hp'
              rw [hp] at hp'; cases hp'; rfl
            | cons x c =>
              simp at e2
              obtain ⟨rfl, e2⟩ := e2
              exact absurd hp (hb' p (by rw [e2]; simp) u)
    have main : LastParam (p :: t) name (lastOf name (p :: t)) := by
      unfold lastOf
      cases hl : lastOf name t with
      | some w =>
        obtain ⟨a, q, b, rfl, h1, h2⟩ := hn w hl
        exact ⟨p :: a, q, b, rfl, h1, h2⟩
      | none =>
        simp only
        cases hp : (match param p with
          | some (k, v) => if k = name.toList then some v else none
          | none => none) with
        | some w => exact ⟨[], p, t, rfl, (named_iff _ _ _).1 hp, h0 hl⟩
        | none =>
          intro q hq w hw
          rcases List.mem_cons.1 hq with rfl | hq
          · rw [← named_iff, hp] at hw; cases hw
          · exact h0 hl q hq w hw
    constructor
    · intro h; exact uniq _ _ _ main h
    · rintro rfl; exact main

/-- What reading the parameters gives. -/
theorem readParams_eq : ∀ (segs : List Str) (i a p i' a' p' : Option Str),
    readParams segs (i, a, p) = some (i', a', p') ↔
      (∀ s ∈ segs, ∀ v, IsParam s "info" v → ∃ u, Bracketed v u) ∧
      (match lastOf "info" segs with | some v => ∃ u, Bracketed v u ∧ i' = some u | none => i' = i) ∧
      a' = (match lastOf "alg" segs with | some v => some (unquote v) | none => a) ∧
      p' = (match lastOf "ppt" segs with | some v => some (unquote v) | none => p)
  | [], i, a, p, i', a', p' => by
    simp only [readParams, lastOf, Option.some.injEq, Prod.mk.injEq]
    constructor
    · rintro ⟨rfl, rfl, rfl⟩; exact ⟨by simp, rfl, rfl, rfl⟩
    · rintro ⟨_, rfl, rfl, rfl⟩; exact ⟨rfl, rfl, rfl⟩
  | s :: t, i, a, p, i', a', p' => by
    have ih := readParams_eq t
    have brUniq : ∀ v u u', Bracketed v u → Bracketed v u' → u = u' := by
      rintro v u u' ⟨w, h1, h2⟩ ⟨w', h1', h2'⟩
      unfold Between at h1 h1'
      rw [h1] at h1'
      simp at h1'
      rw [strips_trim] at h2 h2'
      rw [h2, h2', h1']
    have ht : ∀ k v, param s = some (k, v) → trim v = v := by
      intro k v h
      unfold param at h
      simp only [Option.map_eq_some_iff] at h
      obtain ⟨q, _, h2⟩ := h
      rw [Prod.mk.injEq] at h2
      rw [← h2.2, trim_idem]
    have e : readParams (s :: t) (i, a, p) =
        (match param s with
          | none => readParams t (i, a, p)
          | some (key, v) =>
            if key = "info".toList then
              match stripBrackets v with
              | none => none
              | some u => readParams t (some u, a, p)
            else if key = "alg".toList then readParams t (i, some (unquote v), p)
            else if key = "ppt".toList then readParams t (i, a, some (unquote v))
            else readParams t (i, a, p)) := by
      rw [readParams]
      unfold param
      cases splitOnce '=' (trim s) with
      | none => rfl
      | some kv => rfl
    rw [e]
    cases hp : param s with
    | none =>
      simp only
      rw [ih]
      have hl : ∀ n, lastOf n (s :: t) = lastOf n t := by
        intro n; rw [lastOf, hp]; cases lastOf n t <;> rfl
      have hi : ∀ v, ¬ IsParam s "info" v := by intro v h; rw [← param_iff, hp] at h; cases h
      rw [hl, hl, hl]
      constructor
      · rintro ⟨h1, h2⟩
        refine ⟨?_, h2⟩
        intro q hq v hv
        rcases List.mem_cons.1 hq with rfl | hq
        · exact absurd hv (hi v)
        · exact h1 q hq v hv
      · rintro ⟨h1, h2⟩
        exact ⟨fun q hq => h1 q (List.mem_cons_of_mem _ hq), h2⟩
    | some kv =>
      obtain ⟨k, v⟩ := kv
      have htv := ht k v hp
      have hl : ∀ n, lastOf n (s :: t) = (match lastOf n t with | some v => some v | none => if k = n.toList then some v else none) := by
        intro n; rw [lastOf, hp]
      simp only
      by_cases h1 : k = "info".toList
      · subst h1
        have hs : IsParam s "info" v := (param_iff _ _ _).1 hp
        rw [if_pos rfl, hl, hl, hl, if_pos rfl, if_neg (by decide), if_neg (by decide)]
        cases hb : stripBrackets v with
        | none =>
          simp only
          constructor
          · intro h; cases h
          · rintro ⟨h, _⟩
            obtain ⟨u, hu⟩ := h s List.mem_cons_self v hs
            rw [(bracketed_iff v u htv).2 hu] at hb; cases hb
        | some u =>
          have hu := (bracketed_iff v u htv).1 hb
          simp only
          rw [ih]
          have hall : (∀ q ∈ t, ∀ v, IsParam q "info" v → ∃ u, Bracketed v u) ↔ (∀ q ∈ s :: t, ∀ v, IsParam q "info" v → ∃ u, Bracketed v u) := by
            constructor
            · intro h q hq w hw
              rcases List.mem_cons.1 hq with rfl | hq
              · rw [← param_iff, hp] at hw; cases hw; exact ⟨u, hu⟩
              · exact h q hq w hw
            · intro h q hq; exact h q (List.mem_cons_of_mem _ hq)
          rw [hall]
          have e1 : (match lastOf "alg" t with | some v => some (unquote v) | none => a) =
              (match (match lastOf "alg" t with | some v => some v | none => none) with | some v => some (unquote v) | none => a) := by
            cases lastOf "alg" t <;> rfl
          have e2 : (match lastOf "ppt" t with | some v => some (unquote v) | none => p) =
              (match (match lastOf "ppt" t with | some v => some v | none => none) with | some v => some (unquote v) | none => p) := by
            cases lastOf "ppt" t <;> rfl
          rw [← e1, ← e2]
          refine and_congr_right (fun _ => and_congr_left (fun _ => ?_))
          cases lastOf "info" t with
          | some w => rfl
          | none =>
            simp only
            constructor
            · rintro rfl; exact ⟨u, hu, rfl⟩
            · rintro ⟨u', hu', rfl⟩; rw [brUniq v u u' hu hu']
      · have hi : ∀ w, ¬ IsParam s "info" w := by
          intro w h; rw [← param_iff, hp] at h; cases h; exact h1 rfl
        have hall : (∀ q ∈ t, ∀ v, IsParam q "info" v → ∃ u, Bracketed v u) ↔ (∀ q ∈ s :: t, ∀ v, IsParam q "info" v → ∃ u, Bracketed v u) := by
          constructor
          · intro h q hq w hw
            rcases List.mem_cons.1 hq with rfl | hq
            · exact absurd hw (hi w)
            · exact h q hq w hw
          · intro h q hq; exact h q (List.mem_cons_of_mem _ hq)
        rw [if_neg h1, hl, hl, hl, if_neg h1]
        by_cases h2 : k = "alg".toList
        · subst h2
          rw [if_pos rfl, ih, hall, if_pos rfl, if_neg (by decide)]
          refine and_congr_right (fun _ => ?_)
          cases lastOf "info" t <;> cases lastOf "alg" t <;> cases lastOf "ppt" t <;> rfl
        · by_cases h3 : k = "ppt".toList
          · subst h3
            rw [if_neg h2, if_pos rfl, ih, hall, if_pos rfl, if_neg h2]
            refine and_congr_right (fun _ => ?_)
            cases lastOf "info" t <;> cases lastOf "alg" t <;> cases lastOf "ppt" t <;> rfl
          · rw [if_neg h2, if_neg h3, ih, hall, if_neg h2, if_neg h3]
            refine and_congr_right (fun _ => ?_)
            cases lastOf "info" t <;> cases lastOf "alg" t <;> cases lastOf "ppt" t <;> rfl

theorem token_ne_nil {t : Str} {p : Passport} (h : IsToken t p) : t ≠ [] := by
  obtain ⟨a, b, s, _, _, _, _, rfl, _⟩ := h
  simp

/-- An Identity header is accepted exactly when it is one, and is read as what it says. -/
theorem parse_iff (value : Str) (h : IdHeader) : IdHeader.parse value = .ok h ↔ IsHeader value h := by
  have hlen : utf8Len value = (utf8 value).length := (length_utf8 value).symm
  constructor
  · intro he
    unfold IdHeader.parse at he
    split at he
    · cases he
    · rename_i hl
      split at he
      · cases he
      · rename_i t segs hs
        simp only at he
        split at he
        · cases he
        · split at he
          · cases he
          · rename_i p hp
            split at he
            · cases he
            · rename_i info alg ppt hr
              cases he
              rw [readParams_eq] at hr
              obtain ⟨h1, h2, h3, h4⟩ := hr
              refine ⟨by have : MAX_HEADER_LEN = 8192 := rfl; omega, t, segs, (pieces_iff _ _ _).2 hs.symm, (strips_trim _ _).2 rfl,
                (decode_iff _ _).1 hp, h1, ⟨_, (lastParam_iff _ _ _).2 rfl, ?_⟩, ⟨_, (lastParam_iff _ _ _).2 rfl, ?_⟩,
                ⟨_, (lastParam_iff _ _ _).2 rfl, ?_⟩⟩
              · cases hl : lastOf "info" segs with
                | none => rw [hl] at h2; rw [h2]; trivial
                | some v => rw [hl] at h2; obtain ⟨u, h5, h6⟩ := h2; rw [h6]; exact h5
              · cases hl : lastOf "alg" segs with
                | none => rw [hl] at h3; rw [h3]; trivial
                | some v => rw [hl] at h3; rw [h3]; exact (unquoted_iff _ _).1 rfl
              · cases hl : lastOf "ppt" segs with
                | none => rw [hl] at h4; rw [h4]; trivial
                | some v => rw [hl] at h4; rw [h4]; exact (unquoted_iff _ _).1 rfl
  · rintro ⟨h1, t, segs, h2, h3, h4, h5, ⟨v1, h6, h7⟩, ⟨v2, h8, h9⟩, ⟨v3, h10, h11⟩⟩
    obtain ⟨p, info, alg, ppt, tok⟩ := h
    rw [pieces_iff] at h2
    rw [strips_trim] at h3
    simp only at h3 h4 h7 h9 h11
    rw [lastParam_iff] at h6 h8 h10
    unfold IdHeader.parse
    rw [if_neg (by have : MAX_HEADER_LEN = 8192 := rfl; omega), ← h2]
    simp only
    rw [← h3, if_neg (by have := token_ne_nil h4; simpa [List.isEmpty_iff] using this), (decode_iff _ _).2 h4]
    simp only
    have hr : readParams segs (none, none, none) = some (info, alg, ppt) := by
      rw [readParams_eq, h6, h8, h10]
      refine ⟨h5, ?_, ?_, ?_⟩
      · cases v1 with
        | none => cases info with
          | none => rfl
          | some _ => exact absurd h7 (by simp [Mapped])
        | some v => cases info with
          | none => exact absurd h7 (by simp [Mapped])
          | some u => exact ⟨u, h7, rfl⟩
      · cases v2 with
        | none => cases alg with
          | none => rfl
          | some _ => exact absurd h9 (by simp [Mapped])
        | some v => cases alg with
          | none => exact absurd h9 (by simp [Mapped])
          | some u => show some u = some (unquote v); rw [(unquoted_iff v u).2 h9]
      · cases v3 with
        | none => cases ppt with
          | none => rfl
          | some _ => exact absurd h11 (by simp [Mapped])
        | some v => cases ppt with
          | none => exact absurd h11 (by simp [Mapped])
          | some u => show some u = some (unquote v); rw [(unquoted_iff v u).2 h11]
    rw [hr]

end Siphon.Ident
