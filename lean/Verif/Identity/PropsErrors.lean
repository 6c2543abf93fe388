import Verif.Identity.Props
/-!
# The refusals of tokens and headers (C109)
-/
namespace Siphon.Ident
open Spec
open TextSpec (Strips Pieces)

/-- The pieces of a token, read. -/
def Opened (t : Str) (jh jc : Json) : Prop :=
  ∃ h c s hj cj sig, Pieces '.' t [h, c, s] ∧ Base64 h hj ∧ Base64 c cj ∧ Base64 s sig ∧ JsonText hj jh ∧ JsonText cj jc

/-- The fields of claims, with the attestation as a text. -/
def ClaimsText (j : Json) (a : Option Str) : Prop :=
  ∃ attest orig dest iat origid o d i g, Fields ["attest", "orig", "dest", "iat", "origid"] j [attest, orig, dest, iat, origid] ∧
    OptText attest a ∧ OrigOf orig o ∧ DestOf dest d ∧ OptInt iat i ∧ OptText origid g

/-- A header without the address of a certificate. -/
def NoAddress (j : Json) : Prop :=
  ∃ alg typ ppt x5u ty pp, Fields ["alg", "typ", "ppt", "x5u"] j [some (.str (some alg)), typ, ppt, x5u] ∧
    OptText typ ty ∧ OptText ppt pp ∧ OptText x5u none

theorem noAddress_iff (j : Json) : (∃ alg typ ppt, rawHeader j = some (alg, typ, ppt, none)) ↔ NoAddress j := by
  constructor
  · rintro ⟨alg, typ, ppt, h⟩
    unfold rawHeader at h
    split at h
    · rename_i a b c d heq
      simp only [bind, Option.bind_eq_some_iff] at h
      obtain ⟨alg', h1, typ', h2, ppt', h3, x5u', h4, h5⟩ := h
      cases h5
      rw [← optText_iff] at h2 h3 h4
      rw [structFields_iff] at heq
      have ha : a = .str (some alg) := by
        unfold asString at h1
        split at h1
        · cases h1; rfl
        · cases h1
      subst ha
      exact ⟨alg, b, c, d, typ, ppt, heq, h2, h3, h4⟩
    · cases h
  · rintro ⟨alg, typ, ppt, x5u, ty, pp, h1, h2, h3, h4⟩
    rw [← structFields_iff] at h1
    rw [optText_iff] at h2 h3 h4
    refine ⟨alg, ty, pp, ?_⟩
    unfold rawHeader
    rw [h1]
    simp [asString, h2, h3, h4]

theorem claimsText_iff (j : Json) (a : Option Str) : (∃ o d i g, rawClaims j = some (a, o, d, i, g)) ↔ ClaimsText j a := by
  constructor
  · rintro ⟨o, d, i, g, h⟩
    rw [claims_iff] at h
    obtain ⟨x1, x2, x3, x4, x5, h⟩ := h
    exact ⟨x1, x2, x3, x4, x5, o, d, i, g, h⟩
  · rintro ⟨x1, x2, x3, x4, x5, o, d, i, g, h⟩
    exact ⟨o, d, i, g, (claims_iff _ _ _ _ _ _).2 ⟨x1, x2, x3, x4, x5, h⟩⟩

/-- What decoding does after the pieces are read. -/
def judge (h : Option (Str × Option Str × Option Str × Option Str))
    (c : Option (Option Str × Option Str × List Str × Option Int × Option Str)) : Option IdErr :=
  match h with
  | none => some .json
  | some (_, _, _, x5u) =>
    match c with
    | none => some .json
    | some (attest, _) =>
      match x5u with
      | none => some .missingField
      | some _ =>
        match attest with
        | none => none
        | some t =>
          match Attest.parse t with
          | none => some .invalidField
          | some _ => none

theorem decode_pieces {t a b s : Str} (hp : Pieces '.' t [a, b, s]) (e : IdErr) :
    Passport.decode t = .error e ↔
      (e = .base64 ∧ (b64Decode a = none ∨ b64Decode b = none ∨ b64Decode s = none)) ∨
      (∃ hj cj sig, b64Decode a = some hj ∧ b64Decode b = some cj ∧ b64Decode s = some sig ∧
        judge ((readJson hj).bind rawHeader) ((readJson cj).bind rawClaims) = some e) := by
  rw [pieces_iff] at hp
  unfold Passport.decode judge
  rw [← hp]
  simp only
  cases b64Decode a with
  | none => simp; exact eq_comm
  | some hj =>
    cases b64Decode b with
    | none => simp; exact eq_comm
    | some cj =>
      cases b64Decode s with
      | none => simp; exact eq_comm
      | some sig =>
        simp only [reduceCtorEq, or_self, and_false, false_or, Option.some.injEq, exists_and_left, exists_eq_left']
        cases (readJson hj).bind rawHeader with
        | none => simp
        | some x =>
          obtain ⟨alg, typ, ppt, x5u⟩ := x
          simp only
          cases (readJson cj).bind rawClaims with
          | none => simp
          | some y =>
            obtain ⟨att, orig, dest, iat, g⟩ := y
            simp only
            cases x5u with
            | none => simp
            | some x5u =>
              simp only
              cases att with
              | none => simp
              | some tx =>
                simp only
                cases Attest.parse tx with
                | none => simp
                | some a => simp

theorem no_pieces_error {t : Str} {e : IdErr} (h : Passport.decode t = .error e) (hm : ∀ n, e ≠ .malformedJws n) :
    ∃ a b s, Pieces '.' t [a, b, s] := by
  unfold Passport.decode at h
  split at h
  · rename_i a b s hs; exact ⟨a, b, s, (pieces_iff _ _ _).2 hs.symm⟩
  · cases h; exact absurd rfl (hm _)

/-- **C109.** Refused for its base64: three pieces, not all of them base64url. -/
theorem C109_bad_base64 (t : Str) : Passport.decode t = .error .base64 ↔
    ∃ a b s, Pieces '.' t [a, b, s] ∧ ¬ ((∃ x, Base64 a x) ∧ (∃ x, Base64 b x) ∧ (∃ x, Base64 s x)) := by
  have key : ∀ a b s : Str, ¬ ((∃ x, Base64 a x) ∧ (∃ x, Base64 b x) ∧ (∃ x, Base64 s x)) ↔
      (b64Decode a = none ∨ b64Decode b = none ∨ b64Decode s = none) := by
    intro a b s
    simp only [← b64Decode_iff]
    cases b64Decode a <;> cases b64Decode b <;> cases b64Decode s <;> simp
  have hj : ∀ h c, judge h c ≠ some .base64 := by
    intro h c
    unfold judge
    repeat' split
    all_goals simp
  constructor
  · intro h
    obtain ⟨a, b, s, hp⟩ := no_pieces_error h (by simp)
    rcases (decode_pieces hp _).1 h with ⟨_, h'⟩ | ⟨_, _, _, _, _, _, h'⟩
    · exact ⟨a, b, s, hp, (key _ _ _).2 h'⟩
    · exact absurd h' (hj _ _)
  · rintro ⟨a, b, s, hp, h'⟩
    exact (decode_pieces hp _).2 (Or.inl ⟨rfl, (key _ _ _).1 h'⟩)

/-- **C109.** Refused for a missing field: everything is there but the address of the certificate. -/
theorem C109_no_address (t : Str) : Passport.decode t = .error .missingField ↔
    ∃ jh jc a, Opened t jh jc ∧ NoAddress jh ∧ ClaimsText jc a := by
  have hj : ∀ h c, judge h c = some .missingField ↔ (∃ x y z, h = some (x, y, z, none)) ∧ ∃ a o d i g, c = some (a, o, d, i, g) := by
    intro h c
    unfold judge
    rcases h with _ | ⟨x, y, z, _ | w⟩ <;> rcases c with _ | ⟨a, o, d, i, g⟩ <;> simp
    rcases a with _ | a
    · simp
    · simp only; split <;> simp_all
  constructor
  · intro h
    obtain ⟨a, b, s, hp⟩ := no_pieces_error h (by simp)
    rcases (decode_pieces hp _).1 h with ⟨h', _⟩ | ⟨x, y, z, h1, h2, h3, h'⟩
    · cases h'
    · obtain ⟨⟨alg, typ, ppt, e1⟩, at_, o, d, i, g, e2⟩ := (hj _ _).1 h'
      rw [Option.bind_eq_some_iff] at e1 e2
      obtain ⟨jh, e1, e1'⟩ := e1
      obtain ⟨jc, e2, e2'⟩ := e2
      exact ⟨jh, jc, at_, ⟨a, b, s, x, y, z, hp, (b64Decode_iff _ _).1 h1, (b64Decode_iff _ _).1 h2, (b64Decode_iff _ _).1 h3,
        (readJson_iff _ _).1 e1, (readJson_iff _ _).1 e2⟩, (noAddress_iff _).1 ⟨_, _, _, e1'⟩, (claimsText_iff _ _).1 ⟨_, _, _, _, e2'⟩⟩
  · rintro ⟨jh, jc, at_, ⟨a, b, s, x, y, z, hp, h1, h2, h3, h4, h5⟩, h6, h7⟩
    obtain ⟨_, _, _, h6⟩ := (noAddress_iff _).2 h6
    obtain ⟨_, _, _, _, h7⟩ := (claimsText_iff _ _).2 h7
    refine (decode_pieces hp _).2 (Or.inr ⟨x, y, z, (b64Decode_iff _ _).2 h1, (b64Decode_iff _ _).2 h2, (b64Decode_iff _ _).2 h3, ?_⟩)
    rw [(readJson_iff _ _).2 h4, (readJson_iff _ _).2 h5]
    exact (hj _ _).2 ⟨⟨_, _, _, h6⟩, _, _, _, _, _, h7⟩

/-- **C109.** Refused for an invalid field: everything is there, and the attestation is a text other than A, B and C. -/
theorem C109_bad_attest (t : Str) : Passport.decode t = .error .invalidField ↔
    ∃ jh jc h a, Opened t jh jc ∧ HeaderOf jh h ∧ ClaimsText jc (some a) ∧ a ≠ "A".toList ∧ a ≠ "B".toList ∧ a ≠ "C".toList := by
  have hp' : ∀ a : Str, Attest.parse a = none ↔ a ≠ "A".toList ∧ a ≠ "B".toList ∧ a ≠ "C".toList := by
    intro a
    unfold Attest.parse
    by_cases h1 : a = "A".toList
    · simp [h1]
    · by_cases h2 : a = "B".toList
      · simp [h2]
      · by_cases h3 : a = "C".toList
        · simp [h3]
        · rw [if_neg h1, if_neg h2, if_neg h3]; exact ⟨fun _ => ⟨h1, h2, h3⟩, fun _ => rfl⟩
  have hj : ∀ h c, judge h c = some .invalidField ↔
      (∃ x y z w, h = some (x, y, z, some w)) ∧ ∃ a o d i g, c = some (some a, o, d, i, g) ∧ Attest.parse a = none := by
    intro h c
    unfold judge
    rcases h with _ | ⟨x, y, z, _ | w⟩ <;> rcases c with _ | ⟨a, o, d, i, g⟩ <;> simp
    rcases a with _ | a
    · simp
    · clear hp'; simp only; split <;> simp_all
  constructor
  · intro h
    obtain ⟨a, b, s, hp⟩ := no_pieces_error h (by simp)
    rcases (decode_pieces hp _).1 h with ⟨h', _⟩ | ⟨x, y, z, h1, h2, h3, h'⟩
    · cases h'
    · obtain ⟨⟨alg, typ, ppt, w, e1⟩, at_, o, d, i, g, e2, e3⟩ := (hj _ _).1 h'
      rw [Option.bind_eq_some_iff] at e1 e2
      obtain ⟨jh, e1, e1'⟩ := e1
      obtain ⟨jc, e2, e2'⟩ := e2
      exact ⟨jh, jc, _, at_, ⟨a, b, s, x, y, z, hp, (b64Decode_iff _ _).1 h1, (b64Decode_iff _ _).1 h2, (b64Decode_iff _ _).1 h3,
        (readJson_iff _ _).1 e1, (readJson_iff _ _).1 e2⟩, (header_iff _ _ _ _ _).1 e1', (claimsText_iff _ _).1 ⟨_, _, _, _, e2'⟩,
        (hp' _).1 e3⟩
  · rintro ⟨jh, jc, hd, at_, ⟨a, b, s, x, y, z, hp, h1, h2, h3, h4, h5⟩, h6, h7, h8⟩
    have h6 := (header_iff _ hd.alg hd.typ hd.ppt hd.x5u).2 h6
    obtain ⟨_, _, _, _, h7⟩ := (claimsText_iff _ _).2 h7
    refine (decode_pieces hp _).2 (Or.inr ⟨x, y, z, (b64Decode_iff _ _).2 h1, (b64Decode_iff _ _).2 h2, (b64Decode_iff _ _).2 h3, ?_⟩)
    rw [(readJson_iff _ _).2 h4, (readJson_iff _ _).2 h5]
    exact (hj _ _).2 ⟨⟨_, _, _, _, h6⟩, _, _, _, _, _, h7, (hp' _).2 h8⟩

/-- **C109.** A header value is refused as empty exactly if it is not too long and nothing but white space comes before the first
semicolon; as malformed in its parameters exactly if the token is one and some `info` is not in angle brackets. -/
theorem C109_header_refusals (v : Str) :
    (IdHeader.parse v = .error .emptyToken ↔
      (utf8 v).length ≤ 8192 ∧ ∃ first rest, Pieces ';' v (first :: rest) ∧ ∀ c ∈ first, isWs c = true) ∧
    (IdHeader.parse v = .error .invalidParam ↔
      (utf8 v).length ≤ 8192 ∧ ∃ first rest t p, Pieces ';' v (first :: rest) ∧ Strips isWs first t ∧ IsToken t p ∧
        ∃ q ∈ rest, ∃ w, IsParam q "info" w ∧ ∀ u, ¬ Bracketed w u) := by
  have hlen : utf8Len v = (utf8 v).length := (length_utf8 v).symm
  have hd : ∀ t, Passport.decode t ≠ .error .emptyToken ∧ Passport.decode t ≠ .error .invalidParam := by
    have hj : ∀ h c, judge h c ≠ some .emptyToken ∧ judge h c ≠ some .invalidParam := by
      intro h c
      unfold judge
      repeat' split
      all_goals simp
    intro t
    constructor
    · intro h
      obtain ⟨a, b, s, hp⟩ := no_pieces_error h (by simp)
      rcases (decode_pieces hp _).1 h with ⟨h', _⟩ | ⟨x, y, z, h1, h2, h3, h'⟩
      · cases h'
      · exact (hj _ _).1 h'
    · intro h
      obtain ⟨a, b, s, hp⟩ := no_pieces_error h (by simp)
      rcases (decode_pieces hp _).1 h with ⟨h', _⟩ | ⟨x, y, z, h1, h2, h3, h'⟩
      · cases h'
      · exact (hj _ _).2 h'
  have hr : ∀ segs : List Str, readParams segs (none, none, none) = none ↔
      ∃ q ∈ segs, ∃ w, IsParam q "info" w ∧ ∀ u, ¬ Bracketed w u := by
    intro segs
    constructor
    · intro h
      by_cases hx : ∃ q ∈ segs, ∃ w, IsParam q "info" w ∧ ∀ u, ¬ Bracketed w u
      · exact hx
      · exfalso
        have hall : ∀ s ∈ segs, ∀ v, IsParam s "info" v → ∃ u, Bracketed v u := by
          intro s hs v hv
          by_cases hu : ∃ u, Bracketed v u
          · exact hu
          · exact absurd ⟨s, hs, v, hv, fun u hu' => hu ⟨u, hu'⟩⟩ hx
        have : ∃ i', (match lastOf "info" segs with | some v => ∃ u, Bracketed v u ∧ i' = some u | none => i' = none) := by
          cases hl : lastOf "info" segs with
          | none => exact ⟨none, rfl⟩
          | some w =>
            obtain ⟨a, p, b, e, hp, _⟩ := (lastParam_iff "info" segs (some w)).2 hl
            obtain ⟨u, hu⟩ := hall p (by rw [e]; simp) w hp
            exact ⟨some u, u, hu, rfl⟩
        obtain ⟨i', hi'⟩ := this
        have := (readParams_eq segs none none none i' _ _).2 ⟨hall, hi', rfl, rfl⟩
        rw [this] at h
        cases h
    · rintro ⟨q, hq, w, hw, hb⟩
      cases h : readParams segs (none, none, none) with
      | none => rfl
      | some x =>
        obtain ⟨i, a, p⟩ := x
        obtain ⟨u, hu⟩ := ((readParams_eq _ _ _ _ _ _ _).1 h).1 q hq w hw
        exact absurd hu (hb u)
  have ht : ∀ s : Str, (trim s).isEmpty = true ↔ ∀ c ∈ s, isWs c = true := by
    intro s
    obtain ⟨a, b, e, h1, h2, h3, h4⟩ := (strips_trim s (trim s)).2 rfl
    constructor
    · intro h
      rw [List.isEmpty_iff.1 h] at e
      intro c hc
      rw [e] at hc
      simp only [List.append_nil, List.mem_append] at hc
      rcases hc with hc | hc
      · exact h1 c hc
      · exact h2 c hc
    · intro h
      cases ht : trim s with
      | nil => rfl
      | cons c r =>
        exfalso
        have hf : isWs c = false := h3 c (by rw [ht]; rfl)
        have := h c (by rw [e, ht]; simp)
        rw [this] at hf; cases hf
  unfold IdHeader.parse
  by_cases hl : utf8Len v > MAX_HEADER_LEN
  · rw [if_pos hl]
    have : MAX_HEADER_LEN = 8192 := rfl
    constructor
    · constructor
      · intro h; cases h
      · rintro ⟨h, _⟩; omega
    · constructor
      · intro h; cases h
      · rintro ⟨h, _⟩; omega
  · rw [if_neg hl]
    have hl' : (utf8 v).length ≤ 8192 := by have : MAX_HEADER_LEN = 8192 := rfl; omega
    cases hs : splitChar ';' v with
    | nil => exact absurd hs (by exact splitChar_ne_nil _ _)
    | cons first rest =>
      have hpi : ∀ f r, Pieces ';' v (f :: r) ↔ f = first ∧ r = rest := by
        intro f r
        rw [pieces_iff, hs]
        simp
      simp only
      by_cases he : (trim first).isEmpty = true
      · rw [if_pos he]
        constructor
        · exact ⟨fun _ => ⟨hl', first, rest, (hpi _ _).2 ⟨rfl, rfl⟩, (ht _).1 he⟩, fun _ => rfl⟩
        · constructor
          · intro h; cases h
          · rintro ⟨_, f, r, t, p, hp, hst, htk, _⟩
            obtain ⟨rfl, rfl⟩ := (hpi _ _).1 hp
            rw [strips_trim] at hst
            subst hst
            exact absurd (List.isEmpty_iff.1 he) (token_ne_nil htk)
      · rw [if_neg he]
        cases hdc : Passport.decode (trim first) with
        | error e =>
          simp only
          constructor
          · constructor
            · intro h; cases h; exact absurd hdc (hd _).1
            · rintro ⟨_, f, r, hp, hw⟩
              obtain ⟨rfl, rfl⟩ := (hpi _ _).1 hp
              exact absurd ((ht _).2 hw) he
          · constructor
            · intro h; cases h; exact absurd hdc (hd _).2
            · rintro ⟨_, f, r, t, p, hp, hst, htk, _⟩
              obtain ⟨rfl, rfl⟩ := (hpi _ _).1 hp
              rw [strips_trim] at hst
              subst hst
              rw [← decode_iff, hdc] at htk
              cases htk
        | ok p =>
          simp only
          constructor
          · constructor
            · intro h
              split at h <;> cases h
            · rintro ⟨_, f, r, hp, hw⟩
              obtain ⟨rfl, rfl⟩ := (hpi _ _).1 hp
              exact absurd ((ht _).2 hw) he
          · constructor
            · intro h
              split at h
              · rename_i hn
                exact ⟨hl', first, rest, _, p, (hpi _ _).2 ⟨rfl, rfl⟩, (strips_trim _ _).2 rfl, (decode_iff _ _).1 hdc, (hr _).1 hn⟩
              · cases h
            · rintro ⟨_, f, r, t, p', hp, _, _, hx⟩
              obtain ⟨rfl, rfl⟩ := (hpi _ _).1 hp
              rw [(hr _).2 hx]

/-! ### Cases -/

/-- A token with the given header and claims. -/
def exToken (h c : String) : Str := b64Encode (utf8 h.toList) ++ '.' :: b64Encode (utf8 c.toList) ++ '.' :: b64Encode [1, 2]

/-- What decoding refuses with. -/
def refusal : Except IdErr Passport → Option IdErr
  | .error e => some e
  | .ok _ => none

/-- Every refusal occurs. -/
example : refusal (Passport.decode "a.b!.c".toList) = some .base64 ∧
    refusal (Passport.decode (exToken "{\"alg\":\"ES256\"}" "{}")) = some .missingField ∧
    refusal (Passport.decode (exToken "{\"alg\":\"ES256\",\"x5u\":\"u\"}" "{\"attest\":\"D\"}")) = some .invalidField ∧
    refusal (Passport.decode (exToken "{\"alg\":\"ES256\",\"x5u\":\"u\"}" "{\"iat\":1.0}")) = some .json := by decide +kernel

example : (match IdHeader.parse (exToken "{\"alg\":\"ES256\",\"x5u\":\"u\"}" "{}" ++ ";info=u".toList) with
    | .error e => some e | .ok _ => none) = some .invalidParam := by decide +kernel

example : (match IdHeader.parse " \t;info=<u>".toList with | .error e => some e | .ok _ => none) = some .emptyToken := by decide +kernel

end Siphon.Ident
