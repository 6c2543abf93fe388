import Verif.Identity.SignLemmas
import Verif.Identity.DerLemmas
/-!
# Caller identity (C108 to C110)
-/
namespace Siphon.Ident
open Spec
open TextSpec (DecDigits Strips Pieces)

/-- The time of issue is a number of 64 bits. -/
def Params.InRange (p : Params) : Prop := -(2 : Int) ^ 63 ≤ p.iat ∧ p.iat < (2 : Int) ^ 63

/-- What a token for the parameters should say. -/
def Params.header (p : Params) : PHeader := ⟨"ES256".toList, some "passport".toList, some "shaken".toList, p.x5u⟩

def Params.claims (p : Params) : Claims := ⟨some p.attest, some p.origTn, p.destTns, some p.iat, p.origid⟩

/-! ## C108: what is signed is read back -/

theorem sign_some {p : Params} {sig : Bytes → Option Bytes} {t : Str} (h : sign p sig = some t) :
    p.destTns ≠ [] ∧ p.origTn ≠ [] ∧ ∃ s, sig (utf8 (signingText p)) = some s ∧ t = signingText p ++ '.' :: b64Encode s := by
  unfold sign at h
  split at h
  · cases h
  · rename_i h1
    split at h
    · cases h
    · rename_i h2
      simp only [Option.map_eq_some_iff] at h
      obtain ⟨s, h3, rfl⟩ := h
      exact ⟨by simpa [List.isEmpty_iff] using h1, by simpa [List.isEmpty_iff] using h2, s, h3, rfl⟩

theorem token_signed (p : Params) (hr : p.InRange) (hd : p.destTns ≠ []) (s : Bytes) :
    IsToken (signingText p ++ '.' :: b64Encode s) ⟨p.header, p.claims, utf8 (signingText p), s⟩ :=
  ⟨b64Encode (utf8 (headerJson p.x5u)), b64Encode (utf8 (claimsJson p)), b64Encode s, _, _, _, _, rfl, b64Encode_spec _, b64Encode_spec _,
    b64Encode_spec _, header_text p.x5u, claims_text p hd, header_says p.x5u, claims_says p hr.1 hr.2, rfl⟩

/-- **C108.** A token that signing gives decodes to exactly the parameters, with what was signed and its signature. -/
theorem C108_roundtrip (p : Params) (hr : p.InRange) (sig : Bytes → Option Bytes) (t : Str) (h : sign p sig = some t) :
    ∃ m s, sig m = some s ∧ Passport.decode t = .ok ⟨p.header, p.claims, m, s⟩ := by
  obtain ⟨h1, h2, s, h3, rfl⟩ := sign_some h
  exact ⟨_, s, h3, (decode_iff _ _).2 (token_signed p hr h1 s)⟩

/-- **C108.** With a signer that does not fail, signing fails only without a destination or without an originating number. -/
theorem C108_total (p : Params) (sig : Bytes → Option Bytes) (hs : ∀ m, sig m ≠ none) :
    sign p sig = none ↔ p.destTns = [] ∨ p.origTn = [] := by
  unfold sign
  constructor
  · intro h
    split at h
    · rename_i h1; exact Or.inl (List.isEmpty_iff.1 h1)
    · split at h
      · rename_i h1; exact Or.inr (List.isEmpty_iff.1 h1)
      · rw [Option.map_eq_none_iff] at h; exact absurd h (hs _)
  · rintro (h | h)
    · rw [h]; rfl
    · rw [h]; split <;> rfl

/-- A signer that fails gives no token. -/
theorem C108_signer_fails (p : Params) (sig : Bytes → Option Bytes) (hs : ∀ m, sig m = none) : sign p sig = none := by
  unfold sign
  split
  · rfl
  · split
    · rfl
    · rw [hs]; rfl

/-- Characters that JSON writes as they are. -/
def Plain (s : Str) : Prop := ∀ c ∈ s, c ≠ '"' ∧ c ≠ '\\' ∧ 32 ≤ c.toNat

theorem writeStr_plain {s : Str} (h : Plain s) : writeStr s = '"' :: s ++ ['"'] := by
  have : s.flatMap writeChar = s := by
    induction s with
    | nil => rfl
    | cons c s ih =>
      obtain ⟨h1, h2, h3⟩ := h c List.mem_cons_self
      rw [List.flatMap_cons, ih (fun x hx => h x (List.mem_cons_of_mem _ hx))]
      unfold writeChar
      rw [if_neg h1, if_neg h2, if_neg (by omega), if_neg (by omega), if_neg (by omega), if_neg (by omega), if_neg (by omega),
        if_neg (by omega)]
      rfl
  unfold writeStr
  rw [this]

theorem commas_join : ∀ l : List Str, commas l = TextSpec.join ',' l
  | [] => rfl
  | [_] => rfl
  | a :: b :: t => by
    rw [commas_cons, commas_join (b :: t)]
    rfl

/-- **C108.** The two signed pieces are the JSON texts without white space, the names in alphabetical order (RFC 8225,
section 9). -/
theorem C108_layout (p : Params) (sig : Bytes → Option Bytes) (t : Str) (h : sign p sig = some t) (n : Nat)
    (hx : Plain p.x5u) (ho : Plain p.origTn) (hd : ∀ d ∈ p.destTns, Plain d) (hid : ∀ o, p.origid = some o → Plain o)
    (hi : p.iat = n) :
    ∃ a b c, t = a ++ '.' :: b ++ '.' :: c ∧
      Base64 a (utf8 ("{\"alg\":\"ES256\",\"ppt\":\"shaken\",\"typ\":\"passport\",\"x5u\":\"".toList ++ p.x5u ++ "\"}".toList)) ∧
      Base64 b (utf8 ("{\"attest\":\"".toList ++ (match p.attest with | .A => "A".toList | .B => "B".toList | .C => "C".toList) ++
        "\",\"dest\":{\"tn\":[".toList ++ TextSpec.join ',' (p.destTns.map (fun d => "\"".toList ++ d ++ "\"".toList)) ++
        "]},\"iat\":".toList ++ showNat n ++ ",\"orig\":{\"tn\":\"".toList ++ p.origTn ++ "\"}".toList ++
        (match p.origid with | some o => ",\"origid\":\"".toList ++ o ++ "\"".toList | none => []) ++ "}".toList)) := by
  obtain ⟨h1, h2, s, h3, rfl⟩ := sign_some h
  have e1 : headerJson p.x5u = "{\"alg\":\"ES256\",\"ppt\":\"shaken\",\"typ\":\"passport\",\"x5u\":\"".toList ++ p.x5u ++ "\"}".toList := by
    unfold headerJson member
    rw [writeStr_plain hx]
    simp [object, commas, writeStr, writeChar]
  have ei : writeInt p.iat = showNat n := by
    rw [hi]
    unfold writeInt
    rw [if_neg (by omega), Int.natAbs_natCast]
  have e2 : claimsJson p = "{\"attest\":\"".toList ++ (match p.attest with | .A => "A".toList | .B => "B".toList | .C => "C".toList) ++
        "\",\"dest\":{\"tn\":[".toList ++ TextSpec.join ',' (p.destTns.map (fun d => "\"".toList ++ d ++ "\"".toList)) ++
        "]},\"iat\":".toList ++ showNat n ++ ",\"orig\":{\"tn\":\"".toList ++ p.origTn ++ "\"}".toList ++
        (match p.origid with | some o => ",\"origid\":\"".toList ++ o ++ "\"".toList | none => []) ++ "}".toList := by
    have ed : p.destTns.map writeStr = p.destTns.map (fun d => "\"".toList ++ d ++ "\"".toList) := by
      apply List.map_congr_left
      intro d hdm
      rw [writeStr_plain (hd d hdm)]; rfl
    unfold claimsJson member
    rw [writeStr_plain ho, ed, commas_join, ei]
    cases hp : p.origid with
    | none => cases p.attest <;> simp [object, commas, writeStr, writeChar, Attest.asStr]
    | some o =>
      simp only
      rw [writeStr_plain (hid o hp)]
      cases p.attest <;> simp [object, commas, writeStr, writeChar, Attest.asStr]
  refine ⟨b64Encode (utf8 (headerJson p.x5u)), b64Encode (utf8 (claimsJson p)), b64Encode s, rfl, ?_, ?_⟩
  · rw [← e1]; exact b64Encode_spec _
  · rw [← e2]; exact b64Encode_spec _

/-! ### The header that carries the token -/

theorem wsFree_token {t : Str} {p : Passport} (h : IsToken t p) : (∀ c ∈ t, c ≠ ';' ∧ isWs c = false) := by
  obtain ⟨a, b, s, _, _, _, _, rfl, h1, h2, h3, _⟩ := h
  intro c hc
  simp only [List.mem_append, List.mem_cons] at hc
  rcases hc with (hc | rfl | hc) | rfl | hc
  · exact ⟨(base64_plain h1 c hc).2.1, (base64_plain h1 c hc).2.2.1⟩
  · exact ⟨by decide, by decide⟩
  · exact ⟨(base64_plain h2 c hc).2.1, (base64_plain h2 c hc).2.2.1⟩
  · exact ⟨by decide, by decide⟩
  · exact ⟨(base64_plain h3 c hc).2.1, (base64_plain h3 c hc).2.2.1⟩

theorem pieces_header (t x : Str) (ht : ';' ∉ t) (hx : ';' ∉ x) :
    splitChar ';' (headerValue t x) = [t, "info=<".toList ++ x ++ ['>'], "alg=ES256".toList, "ppt=shaken".toList] := by
  have e : headerValue t x = t ++ ';' :: (("info=<".toList ++ x ++ ['>']) ++ ';' :: ("alg=ES256".toList ++ ';' :: "ppt=shaken".toList)) := by
    unfold headerValue; simp
  rw [e, splitChar_append_sep _ _ _ ht, splitChar_append_sep, splitChar_append_sep, splitChar_of_not_mem]
  · decide
  · decide
  · simp [hx]

theorem trim_bracket (a : Str) (x : Str) (ha : ∀ c, (a ++ ['<']).head? = some c → isWs c = false) :
    trim (a ++ ('<' :: x ++ ['>'])) = a ++ ('<' :: x ++ ['>']) := by
  apply trim_of_trimmed
  constructor
  · intro c hc
    apply ha c
    cases a with
    | nil => exact hc
    | cons => exact hc
  · intro c hc
    have e : a ++ ('<' :: x ++ ['>']) = (a ++ '<' :: x) ++ ['>'] := by simp
    rw [e, List.getLast?_concat] at hc
    cases hc
    decide

theorem stripBrackets_info (x : Str) : stripBrackets ('<' :: x ++ ['>']) = some (trim x) := by
  have ht : trim ('<' :: x ++ ['>']) = '<' :: x ++ ['>'] := trim_bracket [] x (by intro c hc; cases hc; decide)
  unfold stripBrackets
  rw [ht, (between_iff '<' '>' _ x).2 rfl]
  rfl

theorem parse_headerValue {t x : Str} {q : Passport} (hq : IsToken t q) (hx : ';' ∉ x) (hl : (utf8 (headerValue t x)).length ≤ 8192) :
    IdHeader.parse (headerValue t x) = .ok ⟨q, some (trim x), some "ES256".toList, some "shaken".toList, t⟩ := by
  have hw := wsFree_token hq
  have ht : ';' ∉ t := fun h => (hw ';' h).1 rfl
  have htr : trim t = t := trim_of_trimmed _ (trimmed_of_all _ (fun c hc => (hw c hc).2))
  have hlen : utf8Len (headerValue t x) = (utf8 (headerValue t x)).length := (length_utf8 _).symm
  have hi : splitOnce '=' (trim ("info=<".toList ++ x ++ ['>'])) = some ("info".toList, '<' :: x ++ ['>']) := by
    have : trim ("info=<".toList ++ x ++ ['>']) = "info".toList ++ '=' :: ('<' :: x ++ ['>']) := by
      have e : "info=<".toList ++ x ++ ['>'] = "info=".toList ++ ('<' :: x ++ ['>']) := by simp
      rw [e, trim_bracket _ _ (by intro c hc; cases hc; decide)]
      simp
    rw [this, splitOnce_append _ _ _ (by decide)]
  have htv : trim ('<' :: x ++ ['>']) = '<' :: x ++ ['>'] := trim_bracket [] x (by intro c hc; cases hc; decide)
  unfold IdHeader.parse
  rw [if_neg (by have : MAX_HEADER_LEN = 8192 := rfl; omega), pieces_header t x ht hx]
  simp only
  rw [htr, if_neg (by have := token_ne_nil hq; simpa [List.isEmpty_iff] using this), (decode_iff _ _).2 hq]
  simp only
  have hr : readParams ["info=<".toList ++ x ++ ['>'], "alg=ES256".toList, "ppt=shaken".toList] (none, none, none) =
      some (some (trim x), some "ES256".toList, some "shaken".toList) := by
    rw [readParams, hi]
    simp only
    rw [if_pos (by decide), htv, stripBrackets_info]
    rfl
  rw [hr]

/-- **C108.** The value made for the Identity header is read back with the token and the certificate's address, exactly when
the address holds no semicolon, begins and ends without white space, and the value has at most 8192 bytes. -/
theorem C108_header (p : Params) (hr : p.InRange) (sig : Bytes → Option Bytes) (t : Str) (h : sign p sig = some t) :
    (∃ m s, sig m = some s ∧ IdHeader.parse (headerValue t p.x5u) =
      .ok ⟨⟨p.header, p.claims, m, s⟩, some p.x5u, some "ES256".toList, some "shaken".toList, t⟩) ↔
    ';' ∉ p.x5u ∧ Strips isWs p.x5u p.x5u ∧ (utf8 (headerValue t p.x5u)).length ≤ 8192 := by
  obtain ⟨h1, h2, s, h3, rfl⟩ := sign_some h
  have hq := token_signed p hr h1 s
  constructor
  · rintro ⟨m, s', _, he⟩
    rw [parse_iff] at he
    obtain ⟨hl, first, rest, hp, _, _, _, ⟨v, hv1, hv2⟩, _⟩ := he
    cases v with
    | none => exact absurd hv2 (by simp [Mapped])
    | some v =>
      obtain ⟨w, hb, hs⟩ : Bracketed v p.x5u := hv2
      obtain ⟨a, q, b, e, ⟨k, u, n, eq, _, _, _, hu⟩, _⟩ := hv1
      refine ⟨?_, ?_, hl⟩
      · intro hm
        have hq' : ';' ∉ q := hp.2.2 q (by rw [e]; simp)
        apply hq'
        obtain ⟨x1, x2, ew, _⟩ := hs
        obtain ⟨y1, y2, eu, _⟩ := hu
        unfold Between at hb
        rw [eq, eu, hb, ew]
        simp [hm]
      · obtain ⟨x1, x2, ew, _, _, hh, hg⟩ := hs
        exact ⟨[], [], by simp, by simp, by simp, hh, hg⟩
  · rintro ⟨h4, h5, h6⟩
    rw [strips_trim] at h5
    refine ⟨_, s, h3, ?_⟩
    have := parse_headerValue hq h4 h6
    rw [← h5] at this
    exact this

/-! ### A case -/

/-- Parameters as a service provider uses them. -/
def exParams : Params :=
  ⟨"https://cert.example.org/p.cer".toList, .A, "12155551212".toList, ["12155551213".toList, "a\"b\u00e9".toList], 1577836800, some "123e4567".toList⟩

/-- A signer with signatures of 64 bytes. -/
def exSigner (_ : Bytes) : Option Bytes := some (List.replicate 32 7 ++ List.replicate 32 200)

example : exParams.InRange ∧ (sign exParams exSigner).isSome = true := by
  refine ⟨⟨by decide, by decide⟩, ?_⟩
  unfold sign exSigner
  decide

example : Plain exParams.x5u ∧ Plain exParams.origTn := by
  constructor
  · intro c hc; revert c; decide
  · intro c hc; revert c; decide

/-- The conditions on the address matter: with this one the header says another address than the token. -/
theorem C108_address_injected :
    (∃ t h, sign { exParams with x5u := "https://a.example/a>;info=<https://b.example/b".toList } exSigner = some t ∧
      IdHeader.parse (headerValue t "https://a.example/a>;info=<https://b.example/b".toList) = .ok h ∧
      h.info = some "https://b.example/b".toList ∧ h.passport.header.x5u ≠ "https://b.example/b".toList) := by
  have hc : (match sign { exParams with x5u := "https://a.example/a>;info=<https://b.example/b".toList } exSigner with
    | none => false
    | some t =>
      match IdHeader.parse (headerValue t "https://a.example/a>;info=<https://b.example/b".toList) with
      | .ok h => decide (h.info = some "https://b.example/b".toList ∧ h.passport.header.x5u ≠ "https://b.example/b".toList)
      | .error _ => false) = true := by decide +kernel
  split at hc
  · cases hc
  · rename_i t ht
    split at hc
    · rename_i h hh
      have := of_decide_eq_true hc
      exact ⟨t, h, ht, hh, this⟩
    · cases hc

/-! ## C109: what is read is what is there -/

/-- **C109.** A token is accepted exactly when it is three pieces in base64url with a JSON header and JSON claims of the right
form, and is read as what it says. -/
theorem C109_token (t : Str) (p : Passport) : Passport.decode t = .ok p ↔ IsToken t p := decode_iff t p

/-- **C109.** An Identity header is accepted exactly when it is one, and is read as what it says. -/
theorem C109_header (v : Str) (h : IdHeader) : IdHeader.parse v = .ok h ↔ IsHeader v h := parse_iff v h

/-- **C109.** The JSON reader accepts exactly the JSON texts. -/
theorem C109_json (bs : Bytes) (v : Json) : readJson bs = some v ↔ JsonText bs v := readJson_iff bs v

theorem quad {p q r s p' q' r' s' : Nat} (_ : p < 64) (h2 : q < 64) (h3 : r < 64) (h4 : s < 64) (_ : p' < 64) (h2' : q' < 64)
    (h3' : r' < 64) (h4' : s' < 64) (e : ((p * 64 + q) * 64 + r) * 64 + s = ((p' * 64 + q') * 64 + r') * 64 + s') :
    p = p' ∧ q = q' ∧ r = r' ∧ s = s' := by omega

/-- **C109.** The base64url reader accepts exactly the base64url texts, and they have one form. -/
theorem C109_base64 (t : Str) (bs : Bytes) : (b64Decode t = some bs ↔ Base64 t bs) ∧ (Base64 t bs ↔ t = b64Encode bs) := by
  refine ⟨b64Decode_iff t bs, ?_, ?_⟩
  · intro h
    have key : ∀ {t t' : Str} {bs : Bytes}, Base64 t bs → Base64 t' bs → t = t' := by
      have li : ∀ {c c' : Char} {n : Nat}, Letter c n → Letter c' n → c = c' := by
        intro c c' n h h'
        rw [← (val_lt (letter_val h)).2, ← (val_lt (letter_val h')).2]
      intro t t' bs h
      induction h generalizing t' with
      | nil => intro h'; cases h'; rfl
      | three h1 h2 h3 h4 e _ ih =>
        intro h'
        cases h' with
        | three h1' h2' h3' h4' e' ht' =>
          obtain ⟨e1, e2, e3, e4⟩ := quad (val_lt (letter_val h1)).1 (val_lt (letter_val h2)).1 (val_lt (letter_val h3)).1
            (val_lt (letter_val h4)).1 (val_lt (letter_val h1')).1 (val_lt (letter_val h2')).1 (val_lt (letter_val h3')).1
            (val_lt (letter_val h4')).1 (e.trans e'.symm)
          subst e1; subst e2; subst e3; subst e4
          rw [li h1 h1', li h2 h2', li h3 h3', li h4 h4', ih ht']
      | two h1 h2 h3 e =>
        intro h'
        cases h' with
        | two h1' h2' h3' e' =>
          rename_i p q r _ _ _ _ _ p' q' r'
          have b1 := (val_lt (letter_val h1)).1
          have b2 := (val_lt (letter_val h2)).1
          have b3 := (val_lt (letter_val h3)).1
          have b1' := (val_lt (letter_val h1')).1
          have b2' := (val_lt (letter_val h2')).1
          have b3' := (val_lt (letter_val h3')).1
          have e1 : p = p' := by omega
          have e2 : q = q' := by omega
          have e3 : r = r' := by omega
          subst e1; subst e2; subst e3
          rw [li h1 h1', li h2 h2', li h3 h3']
      | one h1 h2 e =>
        intro h'
        cases h' with
        | one h1' h2' e' =>
          rename_i p q _ _ _ p' q'
          have b1 := (val_lt (letter_val h1)).1
          have b2 := (val_lt (letter_val h2)).1
          have b1' := (val_lt (letter_val h1')).1
          have b2' := (val_lt (letter_val h2')).1
          have e1 : p = p' := by omega
          have e2 : q = q' := by omega
          subst e1; subst e2
          rw [li h1 h1', li h2 h2']
    exact key h (b64Encode_spec bs)
  · rintro rfl; exact b64Encode_spec bs

theorem token_pieces {a b s : Str} {x y z : Bytes} (h1 : Base64 a x) (h2 : Base64 b y) (h3 : Base64 s z) :
    '.' ∉ a ∧ '.' ∉ b ∧ '.' ∉ s := ⟨base64_no_dot h1, base64_no_dot h2, base64_no_dot h3⟩

/-- **C109.** A text that is not three pieces is refused with the number of pieces. -/
theorem C109_pieces (t : Str) (n : Nat) :
    Passport.decode t = .error (.malformedJws n) ↔ n ≠ 3 ∧ ∃ ps, Pieces '.' t ps ∧ ps.length = n := by
  simp only [pieces_iff]
  constructor
  · intro h
    unfold Passport.decode at h
    split at h
    · split at h
      · cases h
      split at h
      · cases h
      split at h
      · cases h
      split at h
      · cases h
      split at h
      · cases h
      split at h
      · cases h
      simp only at h
      split at h
      · cases h
      split at h
      · cases h
      · cases h
    · rename_i hn
      cases h
      refine ⟨?_, _, rfl, rfl⟩
      intro h3
      match hs : splitChar '.' t, h3 with
      | [a, b, c], _ => exact hn a b c hs
  · rintro ⟨hn, ps, rfl, rfl⟩
    unfold Passport.decode
    split
    · rename_i hs; rw [hs] at hn; exact absurd rfl hn
    · rfl

/-- **C109.** A header value is refused as too long exactly if it has more than 8192 bytes. -/
theorem C109_too_long (v : Str) (n : Nat) : IdHeader.parse v = .error (.headerTooLong n) ↔ n = (utf8 v).length ∧ 8192 < n := by
  have hlen : utf8Len v = (utf8 v).length := (length_utf8 v).symm
  constructor
  · intro h
    unfold IdHeader.parse at h
    split at h
    · rename_i hl
      cases h
      have : MAX_HEADER_LEN = 8192 := rfl
      exact ⟨hlen, by omega⟩
    · exfalso
      split at h
      · cases h
      · simp only at h
        split at h
        · cases h
        · split at h
          · rename_i e he
            cases h
            unfold Passport.decode at he
            split at he
            · split at he
              · cases he
              split at he
              · cases he
              split at he
              · cases he
              split at he
              · cases he
              split at he
              · cases he
              split at he
              · cases he
              simp only at he
              split at he
              · cases he
              split at he
              · cases he
              · cases he
            · cases he
          · split at h
            · cases h
            · cases h
  · rintro ⟨rfl, h⟩
    unfold IdHeader.parse
    rw [if_pos (by have : MAX_HEADER_LEN = 8192 := rfl; omega), hlen]

/-- A header and claims given as JSON arrays are accepted: the fields are taken by position. -/
theorem C109_arrays_accepted : ∃ h c s,
    Base64 h (utf8 "[\"ES256\",null,null,\"u\"]".toList) ∧ Base64 c (utf8 "[\"A\",[\"1\"],[[\"2\"]]]".toList) ∧ Base64 s [] ∧
    Passport.decode (h ++ '.' :: c ++ '.' :: s) =
      .ok ⟨⟨"ES256".toList, none, none, "u".toList⟩, ⟨some .A, some "1".toList, ["2".toList], none, none⟩, utf8 (h ++ '.' :: c), []⟩ := by
  refine ⟨_, _, _, b64Encode_spec _, b64Encode_spec _, b64Encode_spec _, ?_⟩
  have hc : (match Passport.decode (b64Encode (utf8 "[\"ES256\",null,null,\"u\"]".toList) ++ '.' ::
      b64Encode (utf8 "[\"A\",[\"1\"],[[\"2\"]]]".toList) ++ '.' :: b64Encode []) with
    | .ok p => decide (p = ⟨⟨"ES256".toList, none, none, "u".toList⟩, ⟨some .A, some "1".toList, ["2".toList], none, none⟩,
        utf8 (b64Encode (utf8 "[\"ES256\",null,null,\"u\"]".toList) ++ '.' :: b64Encode (utf8 "[\"A\",[\"1\"],[[\"2\"]]]".toList)), []⟩)
    | .error _ => false) = true := by decide +kernel
  split at hc
  · rename_i p hp
    rw [hp, of_decide_eq_true hc]
  · cases hc

/-- A token that is one, not as signing writes it: white space, other order, escapes, unknown names. -/
example : (match Passport.decode (b64Encode (utf8 "{ \"x5u\" :\"u\", \"z\":[1.5e3,{}],\"alg\":\"\\u0045S256\"}".toList) ++ '.' ::
      b64Encode (utf8 "{\"dest\":{\"tn\":[]}, \"iat\":-3}".toList) ++ '.' :: b64Encode [1]) with
    | .ok p => decide (p.header = ⟨"ES256".toList, none, none, "u".toList⟩ ∧ p.claims = ⟨none, none, [], some (-3), none⟩)
    | .error _ => false) = true := by decide +kernel

/-! ## C110: what is verified is what was signed -/

/-- **C110.** A signature is accepted exactly for the algorithm ES256, a public key in its form (65 bytes, the first 4), and if
the cryptography accepts the signature for what the token says was signed. -/
theorem C110_signature (ok : Bytes → Bytes → Bytes → Bool) (p : Passport) (key : Bytes) :
    p.verifySignature ok key = .ok () ↔
      p.header.alg = "ES256".toList ∧ (∃ x, key = 4 :: x ∧ x.length = 64) ∧ ok key p.signingInput p.signature = true := by
  have hk : (¬ (key.length ≠ 65 ∨ key.head? ≠ some 4)) ↔ ∃ x, key = 4 :: x ∧ x.length = 64 := by
    constructor
    · intro h
      rcases key with _ | ⟨k, x⟩
      · exact absurd (Or.inl (by simp)) h
      · refine ⟨x, ?_, ?_⟩
        · by_cases hk : k = 4
          · rw [hk]
          · exact absurd (Or.inr (by simpa using hk)) h
        · by_cases hx : x.length = 64
          · exact hx
          · exact absurd (Or.inl (by simpa using hx)) h
    · rintro ⟨x, rfl, hx⟩ (h | h)
      · exact h (by simp [hx])
      · exact h rfl
  rw [← hk]
  unfold Passport.verifySignature
  constructor
  · intro h
    split at h
    · cases h
    · rename_i h1
      split at h
      · cases h
      · rename_i h2
        split at h
        · rename_i h3; exact ⟨Classical.not_not.1 h1, h2, h3⟩
        · cases h
  · rintro ⟨h1, h2, h3⟩
    rw [if_neg (fun h => h h1), if_neg h2, if_pos h3]

/-- **C110.** The refusals: another algorithm before anything else, then a key not in its form, then the signature. -/
theorem C110_refusals (ok : Bytes → Bytes → Bytes → Bool) (p : Passport) (key : Bytes) :
    (p.verifySignature ok key = .error .unsupportedAlg ↔ p.header.alg ≠ "ES256".toList) ∧
    (p.verifySignature ok key = .error .malformedKey ↔ p.header.alg = "ES256".toList ∧ ¬ ∃ x, key = 4 :: x ∧ x.length = 64) ∧
    (p.verifySignature ok key = .error .signatureInvalid ↔
      p.header.alg = "ES256".toList ∧ (∃ x, key = 4 :: x ∧ x.length = 64) ∧ ok key p.signingInput p.signature = false) := by
  have hk : (key.length ≠ 65 ∨ key.head? ≠ some 4) ↔ ¬ ∃ x, key = 4 :: x ∧ x.length = 64 := by
    constructor
    · rintro h ⟨x, rfl, hx⟩
      rcases h with h | h
      · exact h (by simp [hx])
      · exact h rfl
    · intro h
      rcases key with _ | ⟨k, x⟩
      · exact Or.inl (by simp)
      · by_cases hk : k = 4
        · subst hk
          refine Or.inl (fun hx => h ⟨x, rfl, ?_⟩)
          simpa using hx
        · exact Or.inr (by simpa using hk)
  unfold Passport.verifySignature
  by_cases h1 : p.header.alg = "ES256".toList
  · rw [if_neg (fun h => h h1)]
    by_cases h2 : ∃ x, key = 4 :: x ∧ x.length = 64
    · rw [if_neg (by rw [hk]; exact fun h => h h2)]
      cases h3 : ok key p.signingInput p.signature
      · exact ⟨⟨fun h => (by cases h), fun h => absurd h1 h⟩, ⟨fun h => (by cases h), fun h => absurd h2 h.2⟩,
          ⟨fun _ => ⟨h1, h2, rfl⟩, fun _ => rfl⟩⟩
      · exact ⟨⟨fun h => (by cases h), fun h => absurd h1 h⟩, ⟨fun h => (by cases h), fun h => absurd h2 h.2⟩,
          ⟨fun h => (by cases h), fun h => (by cases h.2.2)⟩⟩
    · rw [if_pos (hk.2 h2)]
      exact ⟨⟨fun h => (by cases h), fun h => absurd h1 h⟩, ⟨fun _ => ⟨h1, h2⟩, fun _ => rfl⟩,
        ⟨fun h => (by cases h), fun h => absurd h.2.1 h2⟩⟩
  · rw [if_pos h1]
    exact ⟨⟨fun _ => h1, fun _ => rfl⟩, ⟨fun h => (by cases h), fun h => absurd h.1 h1⟩,
      ⟨fun h => (by cases h), fun h => absurd h.1 h1⟩⟩

/-- **C110.** Two tokens with the same signed bytes say the same, and with the same signature they are the same text. -/
theorem C110_bound (t t' : Str) (p p' : Passport) (h : Passport.decode t = .ok p) (h' : Passport.decode t' = .ok p')
    (e : p.signingInput = p'.signingInput) :
    p.header = p'.header ∧ p.claims = p'.claims ∧ (p.signature = p'.signature → t = t') := by
  obtain ⟨a, b, s, hj, cj, jh, jc, rfl, h1, h2, h3, h4, h5, h6, h7, h8⟩ := (decode_iff _ _).1 h
  obtain ⟨a', b', s', hj', cj', jh', jc', rfl, h1', h2', h3', h4', h5', h6', h7', h8'⟩ := (decode_iff _ _).1 h'
  rw [h8, h8'] at e
  have e := utf8_inj e
  have hsp : splitOnce '.' (a ++ '.' :: b) = splitOnce '.' (a' ++ '.' :: b') := by rw [e]
  rw [splitOnce_append _ _ _ (base64_no_dot h1), splitOnce_append _ _ _ (base64_no_dot h1')] at hsp
  cases hsp
  rw [← b64Decode_iff] at h1 h1' h2 h2'
  rw [h1] at h1'; cases h1'
  rw [h2] at h2'; cases h2'
  have ej := jsonText_unique h4 h4'
  have ec := jsonText_unique h5 h5'
  subst ej; subst ec
  obtain ⟨x1, x2, x3, x4, x5, at1, c0, c1, ca, c2, c3, c4, c5⟩ := h7
  obtain ⟨y1, y2, y3, y4, y5, at2, d0, d1, da, d2, d3, d4, d5⟩ := h7'
  have hc := (claims_iff jc at1 _ _ _ _).2 ⟨x1, x2, x3, x4, x5, c0, c1, c2, c3, c4, c5⟩
  have hd := (claims_iff jc at2 _ _ _ _).2 ⟨y1, y2, y3, y4, y5, d0, d1, d2, d3, d4, d5⟩
  rw [hc] at hd
  have hh := (header_iff jh p.header.alg p.header.typ p.header.ppt p.header.x5u).2 h6
  have hh' := (header_iff jh p'.header.alg p'.header.typ p'.header.ppt p'.header.x5u).2 h6'
  rw [hh] at hh'
  obtain ⟨⟨alg, typ, ppt, x5u⟩, ⟨att, orig, dest, iat, origid⟩, si, sg⟩ := p
  obtain ⟨⟨alg', typ', ppt', x5u'⟩, ⟨att', orig', dest', iat', origid'⟩, si', sg'⟩ := p'
  simp only [Option.some.injEq, Prod.mk.injEq] at hd hh'
  obtain ⟨rfl, rfl, rfl, rfl, rfl⟩ := hd
  obtain ⟨rfl, rfl, rfl, rfl⟩ := hh'
  refine ⟨rfl, ?_, ?_⟩
  · have : att = att' := by
      cases ca with
      | absent => cases da; rfl
      | a => cases da; rfl
      | b => cases da; rfl
      | c => cases da; rfl
    subst this; rfl
  · intro es
    simp only at es h3 h3'
    rw [((C109_base64 _ _).2.1 h3), ((C109_base64 _ _).2.1 h3'), es]

/-- The message that signing the parameters asks a signature for: a signer that signs nothing else is enough. -/
def AsksFor (q : Params) (m : Bytes) : Prop := (sign q (fun m' => if m' = m then some [] else none)).isSome = true

/-- **C110.** If signatures are accepted under a key only for messages that were signed for some of the given parameters, then
every token that is verified under the key says what some of these parameters say. -/
theorem C110_only_signed (ok : Bytes → Bytes → Bytes → Bool) (key : Bytes) (Q : Params → Prop) (hQ : ∀ q, Q q → q.InRange)
    (hok : ∀ m s, ok key m s = true → ∃ q, Q q ∧ AsksFor q m)
    (t : Str) (p : Passport) (hd : Passport.decode t = .ok p) (hv : p.verifySignature ok key = .ok ()) :
    ∃ q, Q q ∧ p.header = q.header ∧ p.claims = q.claims := by
  obtain ⟨_, _, h3⟩ := (C110_signature ok p key).1 hv
  obtain ⟨q, hq, ha⟩ := hok _ _ h3
  obtain ⟨t', ht'⟩ := Option.isSome_iff_exists.1 ha
  obtain ⟨m, s, hm, hd'⟩ := C108_roundtrip q (hQ q hq) _ t' ht'
  have em : m = p.signingInput := by
    by_cases h : m = p.signingInput
    · exact h
    · rw [if_neg h] at hm; cases hm
  obtain ⟨e1, e2, _⟩ := C110_bound t t' p _ hd hd' em.symm
  exact ⟨q, hq, e1, e2⟩

/-- **C110.** What is signed is verified, if the cryptography accepts the signatures it makes. -/
theorem C110_signed (ok : Bytes → Bytes → Bytes → Bool) (x : Bytes) (hx : x.length = 64) (sig : Bytes → Option Bytes)
    (hok : ∀ m s, sig m = some s → ok (4 :: x) m s = true) (q : Params) (hr : q.InRange) (t : Str) (h : sign q sig = some t) :
    ∃ p, Passport.decode t = .ok p ∧ p.claims = q.claims ∧ p.verifySignature ok (4 :: x) = .ok () := by
  obtain ⟨m, s, hm, hd⟩ := C108_roundtrip q hr sig t h
  exact ⟨_, hd, rfl, (C110_signature _ _ _).2 ⟨rfl, ⟨x, rfl, hx⟩, hok m s hm⟩⟩

/-- **C110.** With a certificate chain: exactly if the algorithm is ES256, the certificates can be read, the leaf chains to one
of the anchors at the time, and its key verifies the two halves of the signature as numbers in DER. -/
theorem C110_chain (w : WebPki) (p : Passport) (ee : Bytes) (ints anchors : List Bytes) (now : Nat) :
    p.verifyWithChain w ee ints anchors now = .ok () ↔
      p.header.alg = "ES256".toList ∧ w.leaf ee = true ∧ (∀ a ∈ anchors, w.anchor a = true) ∧ w.chain ee ints anchors now = true ∧
      ∃ a b r s d, p.signature = a ++ b ∧ a.length = 32 ∧ b.length = 32 ∧ BigEndian a r ∧ BigEndian b s ∧ DerPair d r s ∧
        w.verify ee p.signingInput d = true := by
  have hj : (∃ a b r s d, p.signature = a ++ b ∧ a.length = 32 ∧ b.length = 32 ∧ BigEndian a r ∧ BigEndian b s ∧ DerPair d r s ∧
        w.verify ee p.signingInput d = true) ↔ ∃ d, joseToDer p.signature = some d ∧ w.verify ee p.signingInput d = true := by
    constructor
    · rintro ⟨a, b, r, s, d, h1, h2, h3, h4, h5, h6, h7⟩
      exact ⟨d, (joseToDer_spec _ _).2 ⟨a, b, r, s, h1, h2, h3, h4, h5, h6⟩, h7⟩
    · rintro ⟨d, h, h7⟩
      obtain ⟨a, b, r, s, h1, h2, h3, h4, h5, h6⟩ := (joseToDer_spec _ _).1 h
      exact ⟨a, b, r, s, d, h1, h2, h3, h4, h5, h6, h7⟩
  rw [hj]
  have ha : (!anchors.all w.anchor) = true ↔ ¬ ∀ a ∈ anchors, w.anchor a = true := by
    rw [Bool.not_eq_true', ← Bool.not_eq_true, List.all_eq_true]
  unfold Passport.verifyWithChain
  constructor
  · intro h
    split at h
    · cases h
    · rename_i h1
      split at h
      · cases h
      · rename_i h2
        split at h
        · cases h
        · rename_i h3
          split at h
          · cases h
          · rename_i h4
            refine ⟨Classical.not_not.1 h1, by simpa using h2, ?_, by simpa using h4, ?_⟩
            · rw [ha] at h3; exact Classical.not_not.1 h3
            · split at h
              · cases h
              · rename_i d hd
                split at h
                · rename_i h5; exact ⟨d, hd, h5⟩
                · cases h
  · rintro ⟨h1, h2, h3, h4, d, h5, h6⟩
    rw [if_neg (fun h => h h1), if_neg (by simp [h2]), if_neg (by rw [ha]; exact fun h => h h3), if_neg (by simp [h4]), h5]
    simp only
    rw [if_pos h6]

/-- **C110.** A number has one DER form, so what the chain check hands on is determined by the signature. -/
theorem C110_der (sig : Bytes) :
    (sig.length = 64 ↔ ∃ d, joseToDer sig = some d) ∧
    ∀ d d' r s, DerPair d r s → DerPair d' r s → d = d' := by
  refine ⟨?_, fun d d' r s h h' => derPair_unique h h'⟩
  unfold joseToDer
  constructor
  · intro h; rw [if_neg (by omega)]; exact ⟨_, rfl⟩
  · rintro ⟨d, h⟩
    split at h
    · cases h
    · omega

/-! ### Cases -/

/-- A signature whose halves have leading zeros and a leading one bit. -/
example : joseToDer (List.replicate 31 0 ++ [5] ++ (200 :: List.replicate 31 1)) =
    some (0x30 :: 38 :: 2 :: 1 :: 5 :: 2 :: 33 :: 0 :: 200 :: List.replicate 31 1) := by decide

/-- There is an oracle and a set of parameters as `C110_only_signed` asks for, with a token that is verified. -/
example : ∃ (ok : Bytes → Bytes → Bytes → Bool) (t : Str) (p : Passport),
    (∀ m s, ok (4 :: List.replicate 64 1) m s = true → ∃ q, q = exParams ∧ AsksFor q m) ∧
    Passport.decode t = .ok p ∧ p.verifySignature ok (4 :: List.replicate 64 1) = .ok () := by
  have hr : exParams.InRange := ⟨by decide, by decide⟩
  have hs : sign exParams (fun _ => some []) = some (signingText exParams ++ '.' :: b64Encode []) := rfl
  obtain ⟨m, s, hm, hd⟩ := C108_roundtrip exParams hr _ _ hs
  have hm0 : m = utf8 (signingText exParams) := by
    have := (decode_iff _ _).2 (token_signed exParams hr (by decide) [])
    rw [this] at hd
    cases hd; rfl
  refine ⟨fun _ m' _ => decide (m' = m), _, _, ?_, hd, ?_⟩
  · intro m' _ h
    have e : m' = m := of_decide_eq_true h
    refine ⟨exParams, rfl, ?_⟩
    unfold AsksFor
    have : sign exParams (fun m'' => if m'' = m' then some [] else none) =
        (if utf8 (signingText exParams) = m' then some [] else none).map (fun s => signingText exParams ++ '.' :: b64Encode s) := rfl
    rw [this, e, hm0, if_pos rfl]
    rfl
  · exact (C110_signature _ _ _).2 ⟨rfl, ⟨List.replicate 64 1, rfl, by decide⟩, by simp⟩

end Siphon.Ident
