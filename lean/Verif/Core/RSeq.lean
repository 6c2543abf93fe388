import Verif.Parse.Lemmas
/-!
# C27: RSeq and RAck headers

Model of `crates/sip-core/src/rseq.rs` and its properties.
-/
namespace Siphon.RSeq
open TextSpec HdrSpec Parse.Spec

/-! ## Model -/

/-- rseq.rs 38 -/
def MAX_PARSE_INPUT : Nat := 128

/-- rseq.rs 41-48 `RSeqError` (payloads dropped). -/
inductive Err | invalidSequence | zeroSequence | invalidMethod | parse | tooLarge
  deriving DecidableEq, Repr

/-- rseq.rs 317-328 `validate_sequence`. -/
def validate (n : Nat) : Except Err Unit :=
  if n = 0 then .error .zeroSequence
  else if n > 2147483647 then .error .invalidSequence
  else .ok ()

/-- rseq.rs 90-92 `RSeqHeader`. -/
structure RSeqHeader where
  sequence : Nat
  deriving DecidableEq, Repr

/-- rseq.rs 113-116 `RSeqHeader::new`. The argument is a `u32`. -/
def RSeqHeader.new (n : Nat) : Except Err RSeqHeader :=
  match validate n with
  | .error e => .error e
  | .ok () => .ok ⟨n⟩

/-- rseq.rs 138-140 `RSeqHeader::next`. -/
def RSeqHeader.next (r : RSeqHeader) : Except Err RSeqHeader :=
  RSeqHeader.new (if r.sequence + 1 > 4294967295 then 4294967295 else r.sequence + 1)

/-- rseq.rs 155-169 `RSeqHeader::parse`. -/
def RSeqHeader.parse (v : Str) : Except Err RSeqHeader :=
  if utf8Len v > MAX_PARSE_INPUT then .error .tooLarge
  else
    match parseDec 4294967295 (trim v) with
    | none => .error .parse
    | some n => RSeqHeader.new n

/-- rseq.rs 172-176 `Display for RSeqHeader`. -/
def RSeqHeader.show (r : RSeqHeader) : Str := showNat r.sequence

/-- rseq.rs 203-207 `RAckHeader`. -/
structure RAckHeader where
  rseq : Nat
  cseqNumber : Nat
  cseqMethod : Method
  deriving DecidableEq, Repr

/-- rseq.rs 231-240 `RAckHeader::new`. -/
def RAckHeader.new (rseq cseq : Nat) (m : Method) : Except Err RAckHeader :=
  match validate rseq with
  | .error e => .error e
  | .ok () =>
    match validate cseq with
    | .error e => .error e
    | .ok () => .ok ⟨rseq, cseq, m⟩

/-- rseq.rs 276-304 `RAckHeader::parse`. -/
def RAckHeader.parse (v : Str) : Except Err RAckHeader :=
  if utf8Len v > MAX_PARSE_INPUT then .error .tooLarge
  else
    match splitWhitespace v with
    | [a, b, w] =>
      match parseDec 4294967295 a with
      | none => .error .parse
      | some r =>
        match parseDec 4294967295 b with
        | none => .error .parse
        | some c =>
          match Method.fromToken w with
          | .error _ => .error .invalidMethod
          | .ok m => RAckHeader.new r c m
    | _ => .error .parse

/-- rseq.rs 307-311 `Display for RAckHeader`. -/
def RAckHeader.show (r : RAckHeader) : Str :=
  showNat r.rseq ++ ' ' :: showNat r.cseqNumber ++ ' ' :: r.cseqMethod.asStr

/-! ## Specification -/

/-- The sequence numbers of RFC 3262: 1 to 2^31 - 1. -/
def Valid (n : Nat) : Prop := 1 ≤ n ∧ n ≤ 2 ^ 31 - 1

/-- An RSeq value: a number with space around it. -/
def RSeqText (v : Str) (n : Nat) : Prop := ∃ t, Strips isWs v t ∧ Decimal t n

/-- An RAck value: two numbers and a method, with space between. -/
def RAckText (v : Str) (r : RAckHeader) : Prop :=
  ∃ a b w, Words v [a, b, w] ∧ Decimal a r.rseq ∧ Decimal b r.cseqNumber ∧ Names w r.cseqMethod

/-! ## Properties -/

theorem validate_iff (n : Nat) : validate n = .ok () ↔ Valid n := by
  unfold validate Valid
  split
  · simp; omega
  · split
    · simp; omega
    · simp; omega

/-- **C27.** An RSeq is made exactly of the numbers from 1 to 2^31 - 1. -/
theorem C27_new (n : Nat) (r : RSeqHeader) : RSeqHeader.new n = .ok r ↔ Valid n ∧ r.sequence = n := by
  unfold RSeqHeader.new
  cases h : validate n with
  | error e =>
    simp only [reduceCtorEq, false_iff, not_and]
    intro hv
    rw [(validate_iff n).2 hv] at h
    cases h
  | ok u =>
    have := (validate_iff n).1 h
    simp only [Except.ok.injEq]
    constructor
    · rintro rfl; exact ⟨this, rfl⟩
    · rintro ⟨_, rfl⟩; rfl

/-- **C27.** The next number is one more, and there is none after 2^31 - 1. -/
theorem C27_next (n : Nat) (r r' : RSeqHeader) (h : RSeqHeader.new n = .ok r) :
    r.next = .ok r' ↔ n < 2 ^ 31 - 1 ∧ r'.sequence = n + 1 := by
  obtain ⟨hv, rfl⟩ := (C27_new _ _).1 h
  unfold RSeqHeader.next
  unfold Valid at hv
  rw [if_neg (by omega), C27_new]
  unfold Valid
  constructor
  · rintro ⟨h1, h2⟩; exact ⟨by omega, h2⟩
  · rintro ⟨h1, h2⟩; exact ⟨⟨by omega, by omega⟩, h2⟩

/-- **C27.** Exactly the texts of at most 128 bytes that are a number from 1 to 2^31 - 1 are read, and give that number. -/
theorem C27_parse (v : Str) (r : RSeqHeader) :
    RSeqHeader.parse v = .ok r ↔ utf8Len v ≤ 128 ∧ RSeqText v r.sequence ∧ Valid r.sequence := by
  unfold RSeqHeader.parse RSeqText MAX_PARSE_INPUT
  split
  · rename_i h
    simp only [reduceCtorEq, false_iff, not_and]
    omega
  · rename_i h
    constructor
    · intro hp
      split at hp
      · cases hp
      · rename_i n hn
        obtain ⟨hv, rfl⟩ := (C27_new _ _).1 hp
        exact ⟨by omega, ⟨_, (strips_trim _ _).2 rfl, ((parseDec_iff _ _ _).1 hn).1⟩, hv⟩
    · rintro ⟨_, ⟨t, ht, hd⟩, hv⟩
      rw [strips_trim] at ht
      subst ht
      rw [(parseDec_iff _ _ _).2 ⟨hd, by unfold Valid at hv; omega⟩]
      exact (C27_new _ _).2 ⟨hv, rfl⟩

theorem digits_utf8 (s : Str) (h : ∀ c ∈ s, isDigit c = true) : utf8Len s = s.length := by
  induction s with
  | nil => rfl
  | cons c s ih =>
    have h1 := (isDigit_iff c).1 (h c List.mem_cons_self)
    have h2 : c.utf8Size = 1 := by rw [utf8Size_toNat, if_pos (by omega)]
    have h3 := ih (fun x hx => h x (List.mem_cons_of_mem _ hx))
    unfold utf8Len at h3 ⊢
    simp only [List.map_cons, List.sum_cons, List.length_cons, h2, h3]
    omega

theorem showNatGo_length : ∀ f n k, n ≤ f → n < 10 ^ (k + 1) → (showNatGo f n).length ≤ k + 1
  | 0, n, k, _, _ => by simp [showNatGo]
  | f + 1, n, k, hf, h => by
    simp only [showNatGo]
    split
    · simp
    · cases k with
      | zero => omega
      | succ k =>
        have := showNatGo_length f (n / 10) k (by omega) (by rw [Nat.pow_succ] at h; omega)
        simp only [List.length_append, List.length_cons, List.length_nil]
        omega

theorem showNat_utf8 (n : Nat) (h : n < 10 ^ 10) : utf8Len (showNat n) ≤ 10 := by
  rw [digits_utf8 _ (showNat_digits n)]
  exact showNatGo_length n n 9 (Nat.le_refl _) h

/-- **C27.** An RSeq that was made or read is written as a text that gives it back. -/
theorem C27_roundtrip (n : Nat) (r : RSeqHeader) (h : RSeqHeader.new n = .ok r) : RSeqHeader.parse r.show = .ok r := by
  obtain ⟨hv, rfl⟩ := (C27_new _ _).1 h
  have hv' := hv
  unfold Valid at hv'
  rw [C27_parse]
  refine ⟨?_, ⟨r.show, ?_, ?_⟩, hv⟩
  · have := showNat_utf8 r.sequence (by omega)
    unfold RSeqHeader.show
    omega
  · rw [strips_trim]
    exact (trim_of_trimmed _ (trimmed_showNat _)).symm
  · exact parseDec_some (parseDec_showNat r.sequence r.sequence (Nat.le_refl _))

/-- **C27.** An RAck is made exactly of two valid numbers and any method. -/
theorem C27_rack_new (a b : Nat) (m : Method) (r : RAckHeader) :
    RAckHeader.new a b m = .ok r ↔ Valid a ∧ Valid b ∧ r = ⟨a, b, m⟩ := by
  unfold RAckHeader.new
  cases h : validate a with
  | error e =>
    simp only [reduceCtorEq, false_iff, not_and]
    intro hv
    rw [(validate_iff a).2 hv] at h
    cases h
  | ok u =>
    have h1 := (validate_iff a).1 h
    cases h' : validate b with
    | error e =>
      simp only [reduceCtorEq, false_iff, not_and]
      intro _ hv
      rw [(validate_iff b).2 hv] at h'
      cases h'
    | ok u =>
      have h2 := (validate_iff b).1 h'
      simp only [Except.ok.injEq]
      constructor
      · rintro rfl; exact ⟨h1, h2, rfl⟩
      · rintro ⟨_, _, rfl⟩; rfl

/-- **C27.** Exactly the texts of at most 128 bytes that are two valid numbers and a method are read as an RAck. -/
theorem C27_rack_parse (v : Str) (r : RAckHeader) :
    RAckHeader.parse v = .ok r ↔ utf8Len v ≤ 128 ∧ RAckText v r ∧ Valid r.rseq ∧ Valid r.cseqNumber := by
  unfold RAckHeader.parse RAckText MAX_PARSE_INPUT
  split
  · simp only [reduceCtorEq, false_iff, not_and]
    omega
  · rename_i h
    constructor
    · intro hp
      split at hp
      · rename_i a b w hw
        split at hp
        · cases hp
        · rename_i n hn
          split at hp
          · cases hp
          · rename_i k hk
            split at hp
            · cases hp
            · rename_i m hm
              obtain ⟨h1, h2, rfl⟩ := (C27_rack_new _ _ _ _).1 hp
              exact ⟨by omega, ⟨a, b, w, (words_iff _ _).2 hw, ((parseDec_iff _ _ _).1 hn).1, ((parseDec_iff _ _ _).1 hk).1,
                (Parse.names_iff _ _).1 hm⟩, h1, h2⟩
      · cases hp
    · rintro ⟨_, ⟨a, b, w, hw, ha, hb, hm⟩, hv1, hv2⟩
      rw [(words_iff _ _).1 hw]
      simp only
      rw [(parseDec_iff _ _ _).2 ⟨ha, by unfold Valid at hv1; omega⟩]
      simp only
      rw [(parseDec_iff _ _ _).2 ⟨hb, by unfold Valid at hv2; omega⟩]
      simp only
      rw [(Parse.names_iff _ _).2 hm]
      exact (C27_rack_new _ _ _ _).2 ⟨hv1, hv2, rfl⟩

theorem words_three (a b w : Str) (ha : ∀ c ∈ a, isWs c = false) (hb : ∀ c ∈ b, isWs c = false) (hw : ∀ c ∈ w, isWs c = false)
    (na : a ≠ []) (nb : b ≠ []) (nw : w ≠ []) : Words (a ++ ' ' :: b ++ ' ' :: w) [a, b, w] := by
  have h3 : Words (' ' :: w) [w] := by
    have := Words.cons (lead := [' ']) (w := w) (rest := []) (ws := []) (by decide) nw hw (by simp) (.nil (by simp))
    simpa using this
  have h2 : Words (' ' :: b ++ ' ' :: w) [b, w] := by
    have := Words.cons (lead := [' ']) (w := b) (rest := ' ' :: w) (by decide) nb hb (by simp; decide) h3
    simpa using this
  have := Words.cons (lead := []) (w := a) (rest := ' ' :: b ++ ' ' :: w) (by simp) na ha (by simp; decide) h2
  simpa using this

/-- **C27, in part.** An RAck whose method was read from a token is written as a text that gives it back. Missing: methods
that were made without reading a token (`C27_rack_lost`). -/
theorem C27_rack_roundtrip_partial (a b : Nat) (t : Str) (m : Method) (r : RAckHeader) (hm : Names t m)
    (h : RAckHeader.new a b m = .ok r) : RAckHeader.parse r.show = .ok r := by
  obtain ⟨h1, h2, rfl⟩ := (C27_rack_new _ _ _ _).1 h
  have hft := (Parse.names_iff _ _).2 hm
  have hrt := C26_roundtrip t m hft
  obtain ⟨s1, s2, _⟩ := C26_token_safe t m hft
  have hnames := (Parse.names_iff _ _).1 hrt
  have hws : ∀ c ∈ m.asStr, isWs c = false := by
    intro c hc
    have h5 := (Parse.names_chars hnames).2 c hc
    have : ¬ (isWs c = true) := by
      intro hw
      simp only [isWs, Bool.or_eq_true, Bool.and_eq_true, decide_eq_true_eq, beq_iff_eq] at hw
      unfold TokenChar at h5
      rcases h5 with h5 | h5 | h5 | h5
      · omega
      · omega
      · omega
      · simp [char_eq_iff] at h5
        omega
    simpa using this
  rw [C27_rack_parse]
  have v1 := h1
  have v2 := h2
  unfold Valid at v1 v2
  refine ⟨?_, ⟨_, _, _, words_three _ _ _ (fun c hc => isDigit_not_ws c (showNat_digits _ c hc))
    (fun c hc => isDigit_not_ws c (showNat_digits _ c hc)) hws (showNat_ne_nil _) (showNat_ne_nil _) s1,
    parseDec_some (parseDec_showNat a a (Nat.le_refl _)), parseDec_some (parseDec_showNat b b (Nat.le_refl _)), hnames⟩, h1, h2⟩
  have e1 := showNat_utf8 a (by omega)
  have e2 := showNat_utf8 b (by omega)
  have e3 : utf8Len (RAckHeader.show ⟨a, b, m⟩) = utf8Len (showNat a) + 1 + utf8Len (showNat b) + 1 + utf8Len m.asStr := by
    have : (' ' : Char).utf8Size = 1 := by decide
    simp only [RAckHeader.show, utf8Len, List.map_append, List.map_cons, List.sum_append, List.sum_cons, this]
    omega
  omega

/-- **C27 (finding).** `RAckHeader::new` takes any `Method::Unknown`: one in small letters comes back in capitals, and one
with a space in it is written as a text that cannot be read. -/
theorem C27_rack_lost :
    (∃ r, RAckHeader.new 1 2 (.unknown "foo".toList) = .ok r ∧ ∃ r', RAckHeader.parse r.show = .ok r' ∧ r' ≠ r) ∧
    (∃ r, RAckHeader.new 1 2 (.unknown "A B".toList) = .ok r ∧ ∃ e, RAckHeader.parse r.show = .error e) :=
  ⟨⟨⟨1, 2, .unknown "foo".toList⟩, rfl, ⟨1, 2, .unknown "FOO".toList⟩, by decide +kernel, by decide⟩,
   ⟨⟨1, 2, .unknown "A B".toList⟩, rfl, .parse, by decide +kernel⟩⟩

example : RSeqHeader.parse " +0042\t".toList = .ok ⟨42⟩ := by decide +kernel
example : RSeqHeader.new 2147483647 = .ok ⟨2147483647⟩ := by decide
example : RSeqHeader.parse "2147483648".toList = .error .invalidSequence := by decide +kernel
example : RAckHeader.parse "776656 1 invite".toList = .ok ⟨776656, 1, .invite⟩ := by decide +kernel
example : Names "x-foo".toList (.unknown "X-FOO".toList) := (Parse.names_iff _ _).1 (by decide +kernel)

end Siphon.RSeq
