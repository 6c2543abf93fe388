import Verif.Parse.Props
import Verif.Parse.WriteSpec
/-! Writing: the lines of a message, and where they end. -/
namespace Siphon.Parse

open Siphon.HdrSpec Siphon.TextSpec Spec

set_option linter.unusedSimpArgs false

/-! ## Bytes -/

theorem encode_cr (c : Char) (h : (13 : UInt8) ∈ String.utf8EncodeChar c) : c = '\r' := by
  have key : ∀ k : Nat, k < 256 → (13 : UInt8) = UInt8.ofNat k → k = 13 := by
    intro k hk e
    have := congrArg UInt8.toNat e
    simp only [UInt8.toNat_ofNat'] at this
    have h13 : (13 : UInt8).toNat = 13 := rfl
    rw [h13] at this
    omega
  rw [char_eq_iff]
  have hv : c.toNat = c.val.toNat := rfl
  rw [hv]
  have hr : ('\r').toNat = 13 := rfl
  rw [hr]
  unfold String.utf8EncodeChar at h
  simp only at h
  split at h
  · simp only [List.mem_cons, List.not_mem_nil, or_false] at h
    exact key _ (by omega) h
  split at h
  · simp only [List.mem_cons, List.not_mem_nil, or_false] at h
    rcases h with h | h <;> · have := key _ (by omega) h; omega
  split at h
  · simp only [List.mem_cons, List.not_mem_nil, or_false] at h
    rcases h with h | h | h <;> · have := key _ (by omega) h; omega
  · simp only [List.mem_cons, List.not_mem_nil, or_false] at h
    rcases h with h | h | h | h <;> · have := key _ (by omega) h; omega

theorem utf8_no_cr {s : Str} (h : '\r' ∉ s) : (13 : UInt8) ∉ utf8 s := by
  intro hm
  obtain ⟨c, hc, h2⟩ := List.mem_flatMap.1 hm
  exact h (encode_cr c h2 ▸ hc)

theorem utf8_ne {s : Str} (h : s ≠ []) : utf8 s ≠ [] := by
  intro e
  exact h (utf8_inj (b := []) (by rw [e]; rfl))

/-- Without CR in `p`, a blank line cannot start inside `p`. -/
theorem past {p x a c : Bytes} (hp : (13 : UInt8) ∉ p) (h : p ++ x = a ++ Spec.blank ++ c) :
    ∃ a', a = p ++ a' ∧ x = a' ++ Spec.blank ++ c := by
  induction p generalizing a with
  | nil => exact ⟨a, rfl, h⟩
  | cons b p ih =>
    cases a with
    | nil =>
      simp only [Spec.blank, List.nil_append, List.cons_append, List.cons.injEq] at h
      exact absurd (by simp [h.1]) hp
    | cons b' a =>
      simp only [List.cons_append, List.cons.injEq] at h
      obtain ⟨rfl, h⟩ := h
      obtain ⟨a', rfl, h2⟩ := ih (fun hm => hp (List.mem_cons_of_mem _ hm)) h
      exact ⟨a', rfl, h2⟩

/-- The first blank line of a text of non-empty lines is the one after it. -/
theorem first_blank : ∀ (ls : List Str), ls ≠ [] → (∀ l ∈ ls, l ≠ [] ∧ '\r' ∉ l) → ∀ body a c,
    utf8 (joinLines ls) ++ Spec.blank ++ body = a ++ Spec.blank ++ c → (utf8 (joinLines ls)).length ≤ a.length
  | [], h, _, _, _, _, _ => absurd rfl h
  | [l], _, hl, body, a, c, h => by
    simp only [joinLines] at h ⊢
    rw [List.append_assoc] at h
    obtain ⟨a', rfl, _⟩ := past (utf8_no_cr (hl l (by simp)).2) h
    simp
  | l :: m :: ls, _, hl, body, a, c, h => by
    rw [joinLines_cons l (m :: ls) (by simp)] at h ⊢
    simp only [utf8_append] at h ⊢
    have hcr : utf8 ['\r', '\n'] = [13, 10] := by decide
    rw [hcr] at h ⊢
    simp only [List.append_assoc] at h
    obtain ⟨a', rfl, h2⟩ := past (utf8_no_cr (hl l (by simp)).2) (by simpa [List.append_assoc] using h)
    have hne : utf8 (joinLines (m :: ls)) ≠ [] ∧ (utf8 (joinLines (m :: ls))).head? ≠ some 13 := by
      have hm := hl m (by simp)
      have hmb := utf8_no_cr hm.2
      have hmne := utf8_ne hm.1
      have : ∃ t, utf8 (joinLines (m :: ls)) = utf8 m ++ t := by
        cases ls with
        | nil => exact ⟨[], by simp [joinLines]⟩
        | cons q qs => rw [joinLines_cons _ _ (by simp)]; exact ⟨utf8 ['\r', '\n'] ++ utf8 (joinLines (q :: qs)), by simp only [utf8_append, List.append_assoc]⟩
      obtain ⟨t, ht⟩ := this
      rw [ht]
      cases hu : utf8 m with
      | nil => exact absurd hu hmne
      | cons b r =>
        rw [hu] at hmb
        simp only [List.cons_append, ne_eq, reduceCtorEq, not_false_eq_true, List.head?_cons, Option.some.injEq, true_and]
        rintro rfl
        exact hmb (by simp)
    cases a' with
    | nil =>
      simp only [Spec.blank, List.nil_append, List.cons_append, List.cons.injEq, true_and] at h2
      cases hj : utf8 (joinLines (m :: ls)) with
      | nil => exact absurd hj hne.1
      | cons b r =>
        rw [hj] at h2 hne
        simp only [List.cons_append, List.cons.injEq] at h2
        exact absurd (by simp [h2.1]) hne.2
    | cons x a' =>
      cases a' with
      | nil =>
        simp only [Spec.blank, List.nil_append, List.cons_append, List.cons.injEq] at h2
        exact absurd h2.2.1 (by decide)
      | cons y a' =>
        simp only [List.cons_append, List.cons.injEq, List.nil_append] at h2
        have ih := first_blank (m :: ls) (by simp) (fun l hl' => hl l (List.mem_cons_of_mem _ hl')) body a' c
          (by simpa [List.append_assoc] using h2.2.2)
        simp only [List.length_append, List.length_cons, List.length_nil] at ih ⊢
        omega

theorem headBody_of_lines (ls : List Str) (hne : ls ≠ []) (hl : ∀ l ∈ ls, l ≠ [] ∧ '\r' ∉ l) (body : Bytes) :
    HeadBody (utf8 (joinLines ls) ++ Spec.blank ++ body) (joinLines ls) body :=
  .inl ⟨rfl, fun a c h => first_blank ls hne hl body a c h⟩

theorem lines_of_clean (ls : List Str) (hne : ls ≠ []) (hl : ∀ l ∈ ls, l ≠ [] ∧ '\r' ∉ l) : Lines (joinLines ls) ls :=
  ⟨hne, rfl, fun l hm a b e => (hl l hm).2 (by rw [e]; simp)⟩

theorem flat_lines (ls : List Str) (hne : ls ≠ []) : ls.flatMap (· ++ crlf) = joinLines ls ++ crlf := by
  induction ls with
  | nil => exact absurd rfl hne
  | cons l ls ih =>
    cases ls with
    | nil => simp [joinLines]
    | cons m ls =>
      rw [List.flatMap_cons, ih (by simp), joinLines_cons l (m :: ls) (by simp)]
      simp [crlf]

theorem headBody_unique {d : Bytes} {h h' : Str} {r r' : Bytes} (a : HeadBody d h r) (b : HeadBody d h' r') : h = h' ∧ r = r' := by
  rw [← headBody_iff] at a b
  rw [a] at b
  simpa using b

theorem lines_unique {s : Str} {a b : List Str} (ha : Lines s a) (hb : Lines s b) : a = b := by
  rw [lines_iff] at ha hb
  rw [← ha, ← hb]

theorem field_unique {l : Str} {h h' : Header} (a : Field l h) (b : Field l h') : h = h' := by
  obtain ⟨_, _, n, v, h1, h2⟩ := (field_push l h ⟨[]⟩ (by simp)).1 a
  obtain ⟨_, _, n', v', h1', h2'⟩ := (field_push l h' ⟨[]⟩ (by simp)).1 b
  rw [h1] at h1'
  cases h1'
  rw [h2] at h2'
  simpa using h2'

theorem fields_unique {ls : List Str} {a b : List Header} (ha : Fields ls a) (hb : Fields ls b) : a = b := by
  induction ha generalizing b with
  | nil => cases hb; rfl
  | skip _ ih =>
    cases hb with
    | skip hb => exact ih hb
    | cons hf _ => exact absurd rfl (field_ne hf)
  | cons hf _ ih =>
    cases hb with
    | skip _ => exact absurd rfl (field_ne hf)
    | cons hf' hb => rw [field_unique hf hf', ih hb]

theorem fields_append {a b : List Str} {x y : List Header} (ha : Fields a x) (hb : Fields b y) : Fields (a ++ b) (x ++ y) := by
  induction ha with
  | nil => exact hb
  | skip _ ih => exact .skip ih
  | cons hf _ ih => exact .cons hf ih

/-! ## Names -/

/-- The four names. -/
def fourNames : List String := ["Via", "Contact", "Route", "Record-Route"]

theorem four_inj : ∀ c ∈ fourNames, ∀ d ∈ fourNames, lower c.toList = lower d.toList → c = d := by decide

theorem canonicalName_find (n : Str) : canonicalName n =
    match fourNames.find? (fun c => decide (lower n = lower c.toList)) with
    | some c => c.toList
    | none => n := by
  unfold canonicalName fourNames eqIgnoreCase
  simp only [beq_iff_eq]
  by_cases h1 : lower n = lower "Via".toList
  · rw [if_pos h1, List.find?_cons_of_pos (p := fun c : String => decide (lower n = lower c.toList)) (decide_eq_true h1)]
  rw [if_neg h1, List.find?_cons_of_neg (p := fun c : String => decide (lower n = lower c.toList)) (fun e => h1 (of_decide_eq_true e))]
  by_cases h2 : lower n = lower "Contact".toList
  · rw [if_pos h2, List.find?_cons_of_pos (p := fun c : String => decide (lower n = lower c.toList)) (decide_eq_true h2)]
  rw [if_neg h2, List.find?_cons_of_neg (p := fun c : String => decide (lower n = lower c.toList)) (fun e => h2 (of_decide_eq_true e))]
  by_cases h3 : lower n = lower "Route".toList
  · rw [if_pos h3, List.find?_cons_of_pos (p := fun c : String => decide (lower n = lower c.toList)) (decide_eq_true h3)]
  rw [if_neg h3, List.find?_cons_of_neg (p := fun c : String => decide (lower n = lower c.toList)) (fun e => h3 (of_decide_eq_true e))]
  by_cases h4 : lower n = lower "Record-Route".toList
  · rw [if_pos h4, List.find?_cons_of_pos (p := fun c : String => decide (lower n = lower c.toList)) (decide_eq_true h4)]
  rw [if_neg h4, List.find?_cons_of_neg (p := fun c : String => decide (lower n = lower c.toList)) (fun e => h4 (of_decide_eq_true e))]
  rfl

theorem shownName_iff (n n' : Str) : ShownName n n' ↔ n' = canonicalName n := by
  unfold ShownName
  rw [canonicalName_find]
  simp only [sameName_iff, eqIgnoreCase, beq_iff_eq]
  change ((∃ c ∈ fourNames, _) ∨ ((∀ c ∈ fourNames, _) ∧ _)) ↔ _
  cases hf : fourNames.find? (fun c => decide (lower n = lower c.toList)) with
  | some p =>
    have h1 := List.find?_some hf
    have h2 := List.mem_of_find?_eq_some hf
    simp only [decide_eq_true_eq] at h1
    simp only
    constructor
    · rintro (⟨q, hq, e, rfl⟩ | ⟨h, _⟩)
      · rw [four_inj q hq p h2 (by rw [← e, ← h1])]
      · exact absurd h1 (h p h2)
    · rintro rfl; exact .inl ⟨p, h2, h1, rfl⟩
  | none =>
    rw [List.find?_eq_none] at hf
    simp only [decide_eq_true_eq] at hf
    simp only
    constructor
    · rintro (⟨q, hq, e, rfl⟩ | ⟨_, rfl⟩)
      · exact absurd e (hf q hq)
      · rfl
    · rintro rfl; exact .inr ⟨hf, rfl⟩

theorem canonicalName_or (n : Str) : canonicalName n = n ∨ ∃ c ∈ fourNames, lower n = lower c.toList ∧ canonicalName n = c.toList := by
  have h := (shownName_iff n _).2 rfl
  rcases h with ⟨c, hc, h1, h2⟩ | ⟨_, h⟩
  · refine .inr ⟨c, hc, ?_, h2⟩
    rw [sameName_iff, eqIgnoreCase, beq_iff_eq] at h1
    exact h1
  · exact .inl h

theorem canonicalHeader_or (n : Str) : canonicalHeaderName n = n ∨
    ∃ p ∈ compact, lower n = [p.1] ∧ canonicalHeaderName n = p.2.toList := by
  have h := (fullName_iff n _).1 rfl
  rcases h with ⟨c, hc, h1, h2⟩ | ⟨_, h⟩
  · refine .inr ⟨c, hc, ?_, h2⟩
    rw [sameName_iff, eqIgnoreCase, beq_iff_eq] at h1
    rw [h1, compact_lower c hc]
  · exact .inl h

theorem lengthName_iff (n : Str) : LengthName n ↔ isLengthName n = true := by
  unfold LengthName isLengthName
  rw [sameName_iff, sameName_iff, Bool.or_eq_true]

theorem canonicalName_lower (n : Str) : lower (canonicalName n) = lower n := by
  rcases canonicalName_or n with h | ⟨c, _, h1, h2⟩
  · rw [h]
  · rw [h2, h1]

theorem four_token : ∀ c ∈ fourNames, Token c.toList ∧ utf8Len c.toList ≤ 128 := by
  have h : ∀ c ∈ fourNames, Header.new c.toList [] = .ok ⟨c.toList, []⟩ := by decide +kernel
  intro c hc
  have := (header_new_ok_iff _ _ _).1 (h c hc)
  exact ⟨this.2.1, this.2.2.1⟩

theorem compact_token : ∀ p ∈ compact, Token p.2.toList ∧ utf8Len p.2.toList ≤ 128 := by
  have h : ∀ p ∈ compact, Header.new p.2.toList [] = .ok ⟨p.2.toList, []⟩ := by decide +kernel
  intro p hp
  have := (header_new_ok_iff _ _ _).1 (h p hp)
  exact ⟨this.2.1, this.2.2.1⟩

theorem canonicalName_token {n : Str} (h : Token n ∧ utf8Len n ≤ 128) : Token (canonicalName n) ∧ utf8Len (canonicalName n) ≤ 128 := by
  rcases canonicalName_or n with e | ⟨c, hc, _, e⟩
  · rwa [e]
  · rw [e]; exact four_token c hc

theorem canonicalHeader_token {n : Str} (h : Token n ∧ utf8Len n ≤ 128) :
    Token (canonicalHeaderName n) ∧ utf8Len (canonicalHeaderName n) ≤ 128 := by
  rcases canonicalHeader_or n with e | ⟨c, hc, _, e⟩
  · rwa [e]
  · rw [e]; exact compact_token c hc

/-! ## Header lines -/

theorem token_chars {n : Str} (h : Token n) : n ≠ [] ∧ ∀ c ∈ n, isWs c = false ∧ c ≠ ':' ∧ c ≠ '\r' ∧ c ≠ '\n' := by
  refine ⟨h.1, fun c hc => ?_⟩
  have := h.2 c hc
  refine ⟨(tokenChar_ok c this).2, ?_⟩
  rw [← isHeaderNameChar_iff] at this
  refine ⟨?_, ?_, ?_⟩ <;> · rintro rfl; exact absurd this (by decide)

theorem utf8Len_append (a b : Str) : utf8Len (a ++ b) = utf8Len a + utf8Len b := by
  simp [utf8Len]

theorem trim_sub (s : Str) : ∃ a b, s = a ++ trim s ++ b := by
  obtain ⟨a, b, h, _⟩ := (strips_trim s _).2 rfl
  exact ⟨a, b, h⟩

theorem trim_oneLine {s : Str} (h : OneLine s) : OneLine (trim s) := by
  obtain ⟨a, b, e⟩ := trim_sub s
  refine ⟨fun hm => h.1 ?_, fun hm => h.2.1 ?_, fun hm => h.2.2 ?_⟩ <;> · rw [e]; simp [hm]

theorem trim_len (s : Str) : utf8Len (trim s) ≤ utf8Len s := by
  obtain ⟨a, b, e⟩ := trim_sub s
  have := congrArg utf8Len e
  rw [utf8Len_append, utf8Len_append] at this
  omega

/-- What is read from the line of a header. -/
def readHeader (shown : Str → Str) (h : Header) : Header := ⟨canonicalHeaderName (shown h.name), trim h.value⟩

theorem trimmed_token {n : Str} (h : Token n) : Trimmed n := trimmed_of_all n (fun c hc => ((token_chars h).2 c hc).1)

theorem field_of_header (n v : Str) (hn : Token n ∧ utf8Len n ≤ 128) (hv : OneLine v ∧ utf8Len v ≤ 8192) :
    Field (n ++ ": ".toList ++ v) ⟨canonicalHeaderName n, trim v⟩ := by
  obtain ⟨h1, h2⟩ := token_chars hn.1
  have hhead : ∀ c, (n ++ ": ".toList ++ v).head? = some c → isWs c = false := by
    intro c hc
    cases n with
    | nil => exact absurd rfl h1
    | cons x n =>
      simp only [List.cons_append, List.head?_cons, Option.some.injEq] at hc
      subst hc
      exact (h2 _ (by simp)).1
  have hct := canonicalHeader_token hn
  refine ⟨n, ' ' :: v, n, by simp, fun hm => (h2 _ hm).2.1 rfl, ?_, ?_, ?_, (fullName_iff _ _).1 rfl, ?_, hct.1, hct.2, trim_oneLine hv.1, ?_⟩
  · intro e; exact absurd (hhead ' ' e) (by decide)
  · intro e; exact absurd (hhead '\t' e) (by decide)
  · rw [strips_trim]; exact (trim_of_trimmed _ (trimmed_token hn.1)).symm
  · rw [strips_trim]
    show trim v = trim (' ' :: v)
    unfold trim trimStart
    rw [List.dropWhile_cons_of_pos (by decide)]
  · exact Nat.le_trans (trim_len v) hv.2

theorem line_clean (n v : Str) (hn : Token n) (hv : OneLine v) : n ++ ": ".toList ++ v ≠ [] ∧ '\r' ∉ n ++ ": ".toList ++ v ∧
    '\n' ∉ n ++ ": ".toList ++ v := by
  obtain ⟨h1, h2⟩ := token_chars hn
  refine ⟨fun e => h1 (by rw [List.append_eq_nil_iff, List.append_eq_nil_iff] at e; exact e.1.1), ?_, ?_⟩
  · simp only [List.mem_append, not_or]
    exact ⟨⟨fun hm => (h2 _ hm).2.2.1 rfl, by decide⟩, hv.1⟩
  · simp only [List.mem_append, not_or]
    exact ⟨⟨fun hm => (h2 _ hm).2.2.2 rfl, by decide⟩, hv.2.1⟩

/-- The line of a header in a request. -/
def reqLine (h : Header) : Str := canonicalName h.name ++ ": ".toList ++ trim h.value
/-- The line of a header in a response. -/
def respLine (h : Header) : Str := h.name ++ ": ".toList ++ h.value
/-- The headers that are written one by one. -/
def kept (hs : List Header) : List Header := hs.filter (fun h => !isLengthName h.name)

theorem kept_mem {hs : List Header} {h : Header} (hm : h ∈ kept hs) : h ∈ hs ∧ isLengthName h.name = false := by
  unfold kept at hm
  rw [List.mem_filter] at hm
  exact ⟨hm.1, by simpa using hm.2⟩

theorem writeReq_eq (hs : List Header) : writeReqHeaders hs = ((kept hs).map reqLine).flatMap (· ++ crlf) := by
  induction hs with
  | nil => rfl
  | cons h hs ih =>
    simp only [writeReqHeaders]
    unfold kept at ih ⊢
    by_cases hl : isLengthName h.name = true
    · rw [if_pos hl, ih, List.filter_cons_of_neg (by simp [hl])]
    · rw [if_neg hl, ih, List.filter_cons_of_pos (by simp [hl]), List.map_cons, List.flatMap_cons]
      rfl

theorem writeResp_eq (hs : List Header) : writeRespHeaders hs = ((kept hs).map respLine).flatMap (· ++ crlf) := by
  induction hs with
  | nil => rfl
  | cons h hs ih =>
    simp only [writeRespHeaders]
    unfold kept at ih ⊢
    by_cases hl : isLengthName h.name = true
    · rw [if_pos hl, ih, List.filter_cons_of_neg (by simp [hl])]
    · rw [if_neg hl, ih, List.filter_cons_of_pos (by simp [hl]), List.map_cons, List.flatMap_cons]
      rfl

theorem headerLines_iff {L : Header → Str → Prop} {f : Header → Str} (hL : ∀ h l, L h l ↔ l = f h) (hs : List Header) (ls : List Str) :
    HeaderLines L hs ls ↔ ls = (kept hs).map f := by
  unfold kept
  constructor
  · intro h
    induction h with
    | nil => rfl
    | skip hl _ ih => rw [lengthName_iff] at hl; rw [List.filter_cons_of_neg (by simp [hl]), ih]
    | line hl h1 _ ih => rw [lengthName_iff] at hl; rw [List.filter_cons_of_pos (by simp [hl]), List.map_cons, ih, (hL _ _).1 h1]
  · rintro rfl
    induction hs with
    | nil => exact .nil
    | cons h hs ih =>
      by_cases hl : isLengthName h.name = true
      · rw [List.filter_cons_of_neg (by simp [hl])]; exact .skip ((lengthName_iff _).2 hl) ih
      · rw [List.filter_cons_of_pos (by simp [hl]), List.map_cons]
        exact .line (fun e => hl ((lengthName_iff _).1 e)) ((hL _ _).2 rfl) ih

theorem rewritten_iff {S : Str → Str → Prop} {f : Str → Str} (hS : ∀ n m, S n m ↔ m = f n) (hs hs' : List Header) :
    Rewritten S hs hs' ↔ hs' = (kept hs).map (fun h => ⟨f h.name, trim h.value⟩) := by
  unfold kept
  constructor
  · intro h
    induction h with
    | nil => rfl
    | skip hl _ ih => rw [lengthName_iff] at hl; rw [List.filter_cons_of_neg (by simp [hl]), ih]
    | keep hl h1 h2 _ ih =>
      rw [lengthName_iff] at hl
      rw [strips_trim] at h2
      rw [List.filter_cons_of_pos (by simp [hl]), List.map_cons, ih, (hS _ _).1 h1, h2]
  · rintro rfl
    induction hs with
    | nil => exact .nil
    | cons h hs ih =>
      by_cases hl : isLengthName h.name = true
      · rw [List.filter_cons_of_neg (by simp [hl])]; exact .skip ((lengthName_iff _).2 hl) ih
      · rw [List.filter_cons_of_pos (by simp [hl]), List.map_cons]
        exact .keep (fun e => hl ((lengthName_iff _).1 e)) ((hS _ _).2 rfl) ((strips_trim _ _).2 rfl) ih

theorem requestHeaderLine_iff (h : Header) (l : Str) : RequestHeaderLine h l ↔ l = reqLine h := by
  unfold RequestHeaderLine reqLine
  simp only [shownName_iff, strips_trim]
  constructor
  · rintro ⟨n, v, rfl, rfl, rfl⟩; rfl
  · rintro rfl; exact ⟨_, _, rfl, rfl, rfl⟩

theorem readName_iff (n m : Str) : ReadName n m ↔ m = canonicalHeaderName (canonicalName n) := by
  unfold ReadName
  constructor
  · rintro ⟨k, h1, h2⟩
    rw [shownName_iff] at h1
    rw [← fullName_iff] at h2
    rw [← h1, h2]
  · rintro rfl; exact ⟨_, (shownName_iff _ _).2 rfl, (fullName_iff _ _).1 rfl⟩

theorem hasMax_iff (hs : List Header) : HasMaxForwards hs ↔ hs.any (·.nameEq "Max-Forwards".toList) = true := by
  unfold HasMaxForwards
  rw [List.any_eq_true]
  simp only [nameEq_iff]

theorem added_iff {α : Type} (hs : List Header) (x : α) (e : List α) :
    Added hs x e ↔ e = if hs.any (·.nameEq "Max-Forwards".toList) then [] else [x] := by
  unfold Added
  rw [hasMax_iff]
  generalize hs.any (·.nameEq "Max-Forwards".toList) = b
  cases b <;> simp

/-! ## The lines of a message -/

/-- The headers that are read back from a written request. -/
def readBack (hs : List Header) (n : Nat) : List Header :=
  (kept hs).map (fun h => ⟨canonicalHeaderName (canonicalName h.name), trim h.value⟩) ++
    (if hs.any (·.nameEq "Max-Forwards".toList) then [] else [⟨"Max-Forwards".toList, "70".toList⟩]) ++
    [⟨"Content-Length".toList, showNat n⟩]

/-- The lines of a written request. -/
def requestText (r : Siphon.Request) : List Str :=
  (r.method.asStr ++ " ".toList ++ r.uri ++ " SIP/2.0".toList) ::
    ((kept r.headers.inner).map reqLine ++
      (if r.headers.inner.any (·.nameEq "Max-Forwards".toList) then [] else ["Max-Forwards: 70".toList]) ++
      ["Content-Length: ".toList ++ showNat r.body.length])

/-- The lines of a written response. -/
def responseText (r : Siphon.Response) : List Str :=
  ("SIP/2.0 ".toList ++ showNat r.code ++ " ".toList ++ r.reason) ::
    ((kept r.headers.inner).map respLine ++ ["Content-Length: ".toList ++ showNat r.body.length])

theorem requestLines_iff (r : Siphon.Request) (ls : List Str) : RequestLines r ls ↔ ls = requestText r := by
  unfold RequestLines requestText
  simp only [headerLines_iff requestHeaderLine_iff, added_iff]
  constructor
  · rintro ⟨_, _, rfl, rfl, rfl⟩; rfl
  · rintro rfl; exact ⟨_, _, rfl, rfl, rfl⟩

theorem responseLines_iff (r : Siphon.Response) (ls : List Str) : ResponseLines r ls ↔ ls = responseText r := by
  unfold ResponseLines responseText
  simp only [headerLines_iff (L := ResponseHeaderLine) (f := respLine) (fun _ _ => Iff.rfl)]
  constructor
  · rintro ⟨_, rfl, rfl⟩; rfl
  · rintro rfl; exact ⟨_, rfl, rfl⟩

theorem normalRequest_iff (r r' : Siphon.Request) : NormalRequest r r' ↔
    r' = ⟨r.method, r.uri, ⟨readBack r.headers.inner r.body.length⟩, r.body⟩ := by
  unfold NormalRequest readBack
  simp only [rewritten_iff readName_iff, added_iff]
  constructor
  · rintro ⟨h1, h2, h3, _, _, rfl, rfl, h4⟩
    obtain ⟨m, u, ⟨hs⟩, b⟩ := r'
    simp only at h1 h2 h3 h4
    subst h1 h2 h3 h4
    rfl
  · rintro rfl; exact ⟨rfl, rfl, rfl, _, _, rfl, rfl, rfl⟩

theorem normalResponse_iff (r r' : Siphon.Response) : NormalResponse r r' ↔
    r' = ⟨r.code, trim r.reason, ⟨(kept r.headers.inner).map (fun h => ⟨canonicalHeaderName h.name, trim h.value⟩) ++
      [⟨"Content-Length".toList, showNat r.body.length⟩]⟩, r.body⟩ := by
  unfold NormalResponse
  simp only [rewritten_iff (S := FullName) (f := canonicalHeaderName) (fun n m => by rw [← fullName_iff]; exact eq_comm), strips_trim]
  constructor
  · rintro ⟨h1, h2, h3, _, rfl, h4⟩
    obtain ⟨m, u, ⟨hs⟩, b⟩ := r'
    simp only at h1 h2 h3 h4
    subst h1 h2 h3 h4
    rfl
  · rintro rfl; exact ⟨rfl, rfl, rfl, _, rfl, rfl⟩

theorem utf8_blank : utf8 (crlf ++ crlf) = Spec.blank := by decide

theorem serializeRequest_eq (r : Siphon.Request) :
    serializeRequest r = utf8 (joinLines (requestText r)) ++ Spec.blank ++ r.body := by
  unfold serializeRequest
  simp only
  rw [← utf8_blank, ← utf8_append]
  congr 2
  rw [← List.append_assoc, ← flat_lines (requestText r) (List.cons_ne_nil _ _), writeReq_eq]
  unfold requestText
  generalize r.headers.inner.any (·.nameEq "Max-Forwards".toList) = b
  simp only [List.flatMap_cons, List.flatMap_append, List.flatMap_nil, List.append_nil, List.append_assoc]
  cases b
  · simp only [Bool.false_eq_true, if_false, List.flatMap_cons, List.flatMap_nil, List.append_nil, List.append_assoc]
    rfl
  · simp only [if_true, List.flatMap_nil, List.nil_append, List.append_assoc]
    rfl

theorem serializeResponse_eq (r : Siphon.Response) :
    serializeResponse r = utf8 (joinLines (responseText r)) ++ Spec.blank ++ r.body := by
  unfold serializeResponse
  simp only
  rw [← utf8_blank, ← utf8_append]
  congr 2
  rw [← List.append_assoc, ← flat_lines (responseText r) (List.cons_ne_nil _ _), writeResp_eq]
  unfold responseText
  simp only [List.flatMap_cons, List.flatMap_append, List.flatMap_nil, List.append_nil, List.append_assoc]
  rfl

theorem length_line_clean (n : Nat) : "Content-Length: ".toList ++ showNat n ≠ [] ∧ '\r' ∉ "Content-Length: ".toList ++ showNat n ∧
    '\n' ∉ "Content-Length: ".toList ++ showNat n := by
  refine ⟨fun e => absurd (List.append_eq_nil_iff.1 e).1 (by decide), ?_, ?_⟩
  · rw [List.mem_append, not_or]; exact ⟨by decide, showNat_not_mem n _ (by decide)⟩
  · rw [List.mem_append, not_or]; exact ⟨by decide, showNat_not_mem n _ (by decide)⟩

theorem asStr_token {m : Method} (h : ∃ t, Names t m) : Token m.asStr := by
  obtain ⟨t, h⟩ := h
  exact names_chars ((names_iff _ _).1 (C26_roundtrip t m ((names_iff t m).2 h)))

theorem uri_clean {u : Str} (h : ∃ x, Uri.parse u = some x) : u ≠ [] ∧ ∀ c ∈ u, isControl c = false := by
  obtain ⟨x, h⟩ := h
  unfold Uri.parse at h
  split at h
  · cases h
  rename_i hc
  refine ⟨?_, fun c hm => ?_⟩
  · rintro rfl
    have hn : Uri.parse [] = none := by decide +kernel
    unfold Uri.parse at hn
    rw [if_neg (by simp)] at hn
    rw [hn] at h
    cases h
  · simp only [List.any_eq_true, not_exists, not_and] at hc
    simpa using hc c hm

theorem requestText_clean {r : Siphon.Request} (h : BuiltRequest r) : requestText r ≠ [] ∧
    ∀ l ∈ requestText r, l ≠ [] ∧ '\r' ∉ l ∧ '\n' ∉ l := by
  refine ⟨List.cons_ne_nil _ _, ?_⟩
  intro l hl
  unfold requestText at hl
  simp only [List.mem_cons, List.mem_append, List.not_mem_nil, or_false] at hl
  rcases hl with rfl | (hl | hl) | rfl
  · have h1 := token_chars (asStr_token h.method)
    have h2 := uri_clean h.uri
    refine ⟨fun e => h1.1 (by rw [List.append_eq_nil_iff, List.append_eq_nil_iff, List.append_eq_nil_iff] at e; exact e.1.1.1), ?_, ?_⟩
    · simp only [List.mem_append, not_or]
      exact ⟨⟨⟨fun hm => (h1.2 _ hm).2.2.1 rfl, by decide⟩, fun hm => absurd (h2.2 _ hm) (by decide)⟩, by decide⟩
    · simp only [List.mem_append, not_or]
      exact ⟨⟨⟨fun hm => (h1.2 _ hm).2.2.2 rfl, by decide⟩, fun hm => absurd (h2.2 _ hm) (by decide)⟩, by decide⟩
  · obtain ⟨hd, hm, rfl⟩ := List.mem_map.1 hl
    have hs := h.headers hd (kept_mem hm).1
    exact line_clean _ _ (canonicalName_token ⟨hs.1, hs.2.1⟩).1 (trim_oneLine hs.2.2.1)
  · split at hl
    · cases hl
    · simp only [List.mem_cons, List.not_mem_nil, or_false] at hl
      subst hl
      decide
  · exact length_line_clean _

theorem responseText_clean {r : Siphon.Response} (h : BuiltResponse r) : responseText r ≠ [] ∧
    ∀ l ∈ responseText r, l ≠ [] ∧ '\r' ∉ l ∧ '\n' ∉ l := by
  refine ⟨List.cons_ne_nil _ _, ?_⟩
  intro l hl
  unfold responseText at hl
  simp only [List.mem_cons, List.mem_append, List.not_mem_nil, or_false] at hl
  rcases hl with rfl | hl | rfl
  · refine ⟨fun e => ?_, ?_, ?_⟩
    · rw [List.append_eq_nil_iff, List.append_eq_nil_iff, List.append_eq_nil_iff] at e
      exact absurd e.1.1.1 (by decide)
    · simp only [List.mem_append, not_or]
      exact ⟨⟨⟨by decide, showNat_not_mem _ _ (by decide)⟩, by decide⟩, fun hm => absurd (h.reason.2 _ hm).1 (by decide)⟩
    · simp only [List.mem_append, not_or]
      exact ⟨⟨⟨by decide, showNat_not_mem _ _ (by decide)⟩, by decide⟩, fun hm => absurd (h.reason.2 _ hm).1 (by decide)⟩
  · obtain ⟨hd, hm, rfl⟩ := List.mem_map.1 hl
    have hs := h.headers hd (kept_mem hm).1
    exact line_clean _ _ hs.1 hs.2.2.1
  · exact length_line_clean _

/-! ## Reading what was written -/

theorem showGo_len : ∀ (k f n : Nat), n ≤ f → n < 10 ^ (k + 1) → (showNatGo f n).length ≤ k + 1
  | _, 0, n, _, _ => by simp [showNatGo]
  | 0, f + 1, n, _, h => by
    rw [showNatGo, if_pos (by simpa using h)]; simp
  | k + 1, f + 1, n, hf, h => by
    rw [showNatGo]
    split
    · simp
    · rename_i hn
      have := showGo_len k f (n / 10) (by omega) (by rw [Nat.div_lt_iff_lt_mul (by omega)]; rw [← Nat.pow_succ]; exact h)
      simp; omega

theorem utf8_digits {s : Str} (h : ∀ c ∈ s, isDigit c = true) : utf8Len s = s.length := by
  induction s with
  | nil => rfl
  | cons c s ih =>
    have hc := (isDigit_iff c).1 (h c (by simp))
    have : c.utf8Size = 1 := by
      rw [utf8Size_toNat, if_pos (by omega)]
    have ih := ih (fun x hx => h x (by simp [hx]))
    simp only [utf8Len, List.map_cons, List.sum_cons, List.length_cons] at ih ⊢
    omega

theorem show_len (n k : Nat) (h : n < 10 ^ (k + 1)) : utf8Len (showNat n) ≤ k + 1 := by
  rw [utf8_digits (showNat_digits n)]
  exact showGo_len k n n (Nat.le_refl _) h

theorem length_field (n : Nat) (hn : n ≤ 10485760) : Field ("Content-Length: ".toList ++ showNat n) ⟨"Content-Length".toList, showNat n⟩ := by
  have h := field_of_header "Content-Length".toList (showNat n) (compact_token ('l', "Content-Length") (by decide))
    ⟨⟨showNat_not_mem _ _ (by decide), showNat_not_mem _ _ (by decide), showNat_not_mem _ _ (by decide)⟩, ?_⟩
  · rw [trim_of_trimmed _ (trimmed_showNat n), show canonicalHeaderName "Content-Length".toList = "Content-Length".toList from by decide] at h
    exact h
  · exact Nat.le_trans (show_len n 8 (by omega)) (by omega)

theorem max_field : Field "Max-Forwards: 70".toList ⟨"Max-Forwards".toList, "70".toList⟩ := by
  have e := (header_new_ok_iff "Max-Forwards".toList "70".toList ⟨"Max-Forwards".toList, "70".toList⟩).1 (by decide +kernel)
  exact field_of_header "Max-Forwards".toList "70".toList ⟨e.2.1, e.2.2.1⟩ e.2.2.2

theorem map_fields {f : Header → Str} {g : Header → Header} : ∀ (hs : List Header), (∀ h ∈ hs, Field (f h) (g h)) →
    Fields (hs.map f) (hs.map g)
  | [], _ => .nil
  | h :: hs, hh => .cons (hh h (by simp)) (map_fields hs (fun x hx => hh x (List.mem_cons_of_mem _ hx)))

theorem request_fields {r : Siphon.Request} (h : BuiltRequest r) :
    Fields ((kept r.headers.inner).map reqLine ++
      (if r.headers.inner.any (·.nameEq "Max-Forwards".toList) then [] else ["Max-Forwards: 70".toList]) ++
      ["Content-Length: ".toList ++ showNat r.body.length]) (readBack r.headers.inner r.body.length) := by
  unfold readBack
  refine fields_append (fields_append (map_fields _ ?_) ?_) (.cons (length_field _ h.body) .nil)
  · intro hd hm
    have hs := h.headers hd (kept_mem hm).1
    have := field_of_header (canonicalName hd.name) (trim hd.value) (canonicalName_token ⟨hs.1, hs.2.1⟩)
      ⟨trim_oneLine hs.2.2.1, Nat.le_trans (trim_len _) hs.2.2.2⟩
    rw [trim_trim] at this
    exact this
  · split
    · exact .nil
    · exact .cons max_field .nil

theorem response_fields {r : Siphon.Response} (h : BuiltResponse r) :
    Fields ((kept r.headers.inner).map respLine ++ ["Content-Length: ".toList ++ showNat r.body.length])
      ((kept r.headers.inner).map (fun h => ⟨canonicalHeaderName h.name, trim h.value⟩) ++
        [⟨"Content-Length".toList, showNat r.body.length⟩]) := by
  refine fields_append (map_fields _ ?_) (.cons (length_field _ h.body) .nil)
  intro hd hm
  have hs := h.headers hd (kept_mem hm).1
  exact field_of_header hd.name hd.value ⟨hs.1, hs.2.1⟩ ⟨hs.2.2.1, hs.2.2.2⟩

theorem compact_length : ∀ p ∈ compact, lower p.2.toList = lower "Content-Length".toList → [p.1] = lower "l".toList := by decide
theorem compact_max : ∀ p ∈ compact, lower p.2.toList ≠ lower "Max-Forwards".toList := by decide
theorem compact_again : ∀ p ∈ compact, canonicalName p.2.toList = p.2.toList ∧ canonicalHeaderName p.2.toList = p.2.toList := by
  decide +kernel
theorem compact_notLength : ∀ p ∈ compact, isLengthName p.2.toList = true → p.1 = 'l' := by decide

theorem canonical_notLength {n : Str} (h : isLengthName n = false) : isLengthName (canonicalHeaderName n) = false := by
  have h' : ¬ (isLengthName n = true) := by simp [h]
  rw [← Bool.not_eq_true]
  intro e
  rcases canonicalHeader_or n with hc | ⟨p, hp, h1, h2⟩
  · rw [hc] at e; exact h' e
  · rw [h2] at e
    have := compact_notLength p hp e
    rw [this] at h1
    refine h' ?_
    simp only [isLengthName, eqIgnoreCase, Bool.or_eq_true, beq_iff_eq]
    exact .inr (by rw [h1]; rfl)

theorem canonicalName_length (n : Str) : isLengthName (canonicalName n) = isLengthName n := by
  unfold isLengthName eqIgnoreCase
  rw [canonicalName_lower]

theorem lengthName_same {n : Str} (h : isLengthName n = false) : ¬ SameName n "Content-Length".toList := by
  rw [sameName_iff]
  intro e
  rw [isLengthName, e] at h
  simp at h

theorem selects_append {n : Str} {a b : List Header} {x y : List Str} (ha : Selects n a x) (hb : Selects n b y) :
    Selects n (a ++ b) (x ++ y) := by
  induction ha with
  | nil => exact hb
  | take h _ ih => exact .take h ih
  | skip h _ ih => exact .skip h ih

theorem selects_none {n : Str} : ∀ (hs : List Header), (∀ h ∈ hs, ¬ SameName h.name n) → Selects n hs []
  | [], _ => .nil
  | h :: hs, hh => .skip (hh h (by simp)) (selects_none hs (fun x hx => hh x (List.mem_cons_of_mem _ hx)))

theorem selects_last (hs : List Header) (v : Str) (h : ∀ x ∈ hs, isLengthName x.name = false) :
    Selects "Content-Length".toList (hs ++ [⟨"Content-Length".toList, v⟩]) [v] :=
  selects_append (selects_none hs (fun x hx => lengthName_same (h x hx)))
    (.take ((sameName_iff _ _).2 (by simp [eqIgnoreCase])) .nil)

theorem lengthText_show (n : Nat) (h : n ≤ 10485760) : LengthText (showNat n) n := by
  rw [lengthText_iff, trim_of_trimmed _ (trimmed_showNat n)]
  exact parseDec_showNat _ _ (by omega)

theorem body_last (hs : List Header) (body : Bytes) (h : ∀ x ∈ hs, isLengthName x.name = false) (hb : body.length ≤ 10485760) :
    (∀ b, Body (hs ++ [⟨"Content-Length".toList, showNat body.length⟩]) body b ↔ b = body) ∧
    (∀ b, StrictBody (hs ++ [⟨"Content-Length".toList, showNat body.length⟩]) body b ↔ b = body) := by
  have hsel := selects_last hs (showNat body.length) h
  have hlt := lengthText_show _ hb
  constructor
  · intro b
    constructor
    · rintro ⟨vs, h1, _, h2⟩
      have := selects_unique h1 hsel
      subst this
      rcases h2 with ⟨n, h3, _, h4, rfl⟩ | ⟨h3, _⟩
      · have := h4 _ (by simp) _ hlt
        rw [← this]; simp
      · exact absurd hlt (h3 _ (by simp) _)
    · rintro rfl
      refine ⟨_, hsel, ?_, .inl ⟨b.length, Nat.le_refl _, ⟨_, by simp, hlt⟩, ?_, by simp⟩⟩
      · intro v hv n hn
        simp at hv; subst hv
        rw [← lengthText_unique hlt hn]; omega
      · intro v hv n hn
        simp at hv; subst hv
        exact (lengthText_unique hlt hn).symm
  · intro b
    constructor
    · exact fun h => h.1
    · rintro rfl
      refine ⟨rfl, _, hsel, ?_, by simp⟩
      intro v hv
      simp at hv; subst hv
      exact ⟨hlt, by omega⟩

/-- The headers before the last one. -/
theorem readBack_init (hs : List Header) (n : Nat) : ∃ init, readBack hs n = init ++ [⟨"Content-Length".toList, showNat n⟩] ∧
    ∀ x ∈ init, isLengthName x.name = false := by
  refine ⟨_, rfl, ?_⟩
  intro x hx
  rcases List.mem_append.1 hx with hx | hx
  · obtain ⟨h, hm, rfl⟩ := List.mem_map.1 hx
    exact canonical_notLength (by rw [canonicalName_length]; exact (kept_mem hm).2)
  · split at hx
    · cases hx
    · simp only [List.mem_cons, List.not_mem_nil, or_false] at hx
      subst hx
      decide

theorem names_self {m : Method} (h : ∃ t, Names t m) : Names m.asStr m := by
  obtain ⟨t, h⟩ := h
  exact (names_iff _ _).1 (C26_roundtrip t m ((names_iff t m).2 h))

theorem requestLine_written {r : Siphon.Request} (h : BuiltRequest r) (hu : ∀ c ∈ r.uri, isWs c = false) :
    RequestLine (r.method.asStr ++ " ".toList ++ r.uri ++ " SIP/2.0".toList) r.method r.uri := by
  refine ⟨r.method.asStr, " ".toList, " ".toList, "SIP/2.0".toList, ?_, names_self h.method, ⟨by decide, by decide⟩,
    (uri_clean h.uri).1, hu, h.uri, ⟨by decide, by decide⟩, (sameName_iff _ _).2 (by decide)⟩
  have ht := asStr_token h.method
  have e : r.method.asStr ++ " ".toList ++ r.uri ++ " ".toList ++ "SIP/2.0".toList =
      r.method.asStr ++ " ".toList ++ r.uri ++ " SIP/2.0".toList := by rw [List.append_assoc _ " ".toList]; rfl
  rw [e, strips_trim]
  refine (trim_of_trimmed _ ⟨?_, ?_⟩).symm
  · intro c hc
    cases hm : r.method.asStr with
    | nil => exact absurd hm ht.1
    | cons x t =>
      rw [hm] at hc
      simp only [List.cons_append, List.head?_cons, Option.some.injEq] at hc
      subst hc
      exact ((token_chars ht).2 x (by rw [hm]; simp)).1
  · intro c hc
    have : (r.method.asStr ++ " ".toList ++ r.uri ++ " SIP/2.0".toList).getLast? = some '0' := by
      rw [show " SIP/2.0".toList = " SIP/2.".toList ++ ['0'] from rfl, ← List.append_assoc, List.getLast?_append]
      simp
    rw [this] at hc
    cases hc
    decide

/-- What a reader finds in lines that hold no line end. -/
theorem splits_written {first : Str} {ls : List Str} {hs : List Header} {body : Bytes}
    (hc : ∀ l ∈ first :: ls, l ≠ [] ∧ '\r' ∉ l ∧ '\n' ∉ l) (hf : Fields ls hs) (max : Nat) (f : Str) (hs' : List Header) (rest : Bytes) :
    Splits (utf8 (joinLines (first :: ls)) ++ Spec.blank ++ body) max f hs' rest ↔
      (utf8 (joinLines (first :: ls)) ++ Spec.blank ++ body).length ≤ max ∧ f = first ∧ hs' = hs ∧ rest = body ∧ hs.length ≤ 200 := by
  have hb := headBody_of_lines (first :: ls) (by simp) (fun l hl => ⟨(hc l hl).1, (hc l hl).2.1⟩) body
  have hl := lines_of_clean (first :: ls) (by simp) (fun l hl => ⟨(hc l hl).1, (hc l hl).2.1⟩)
  constructor
  · rintro ⟨h1, head, lines, h2, h3, h4, h5⟩
    obtain ⟨rfl, rfl⟩ := headBody_unique hb h2
    have := lines_unique hl h3
    simp only [List.cons.injEq] at this
    obtain ⟨rfl, rfl⟩ := this
    have := fields_unique hf h4
    subst this
    exact ⟨h1, rfl, rfl, rfl, h5⟩
  · rintro ⟨h1, rfl, rfl, rfl, h5⟩
    exact ⟨h1, _, _, hb, hl, hf, h5⟩

theorem requestLine_unique {l : Str} {m m' : Method} {u u' : Str} (h : RequestLine l m u) (h' : RequestLine l m' u') :
    m = m' ∧ u = u' := by
  rw [← requestLine_iff] at h h'
  rw [h] at h'
  simpa using h'

theorem statusLine_unique {l : Str} {m m' : Nat} {u u' : Str} (h : StatusLine l m u) (h' : StatusLine l m' u') :
    m = m' ∧ u = u' := by
  have h := ((statusLine_iff _ _ _).2 h).1
  have h' := ((statusLine_iff _ _ _).2 h').1
  rw [h] at h'
  simpa using h'

theorem decDigits_show (n : Nat) : DecDigits (showNat n) n := by
  have h := parseDec_showNat n n (Nat.le_refl _)
  rw [parseDec_iff] at h
  rcases h.1 with h | ⟨r, hr, _⟩
  · exact h
  · exact absurd (showNat_digits n '+' (by rw [hr]; simp)) (by decide)

theorem statusLine_written {r : Siphon.Response} (h : BuiltResponse r) (c : Nat) (t : Str) :
    StatusLine ("SIP/2.0 ".toList ++ showNat r.code ++ " ".toList ++ r.reason) c t ↔
      c = r.code ∧ t = trim r.reason ∧ t ≠ [] := by
  have hexist : trim r.reason ≠ [] → StatusLine ("SIP/2.0 ".toList ++ showNat r.code ++ " ".toList ++ r.reason) r.code (trim r.reason) := by
    intro hne
    obtain ⟨a, b, h1, h2, h3, h4, h5⟩ := (strips_trim r.reason _).2 rfl
    refine ⟨"SIP/2.0".toList, " ".toList, showNat r.code, " ".toList, a ++ trim r.reason, ?_, (sameName_iff _ _).2 (by decide),
      ⟨by decide, by decide⟩, decDigits_show _, h.code.1, h.code.2, ⟨by decide, by decide⟩, ?_, ?_, ?_⟩
    · refine ⟨[], b, ?_, by simp, h3, ?_, ?_⟩
      · conv => lhs; rw [h1]
        simp
      · intro c hc
        have : c = 'S' := by simpa using hc.symm
        subst this
        decide
      · intro c hc
        rw [← List.append_assoc, List.getLast?_append] at hc
        cases hg : (trim r.reason).getLast? with
        | none => exact absurd (List.getLast?_eq_none_iff.1 hg) hne
        | some x =>
          rw [hg] at hc
          simp only [Option.some_or, Option.some.injEq] at hc
          subst hc
          exact h5 _ hg
    · exact ⟨a, [], by simp, h2, by simp, h4, h5⟩
    · exact Nat.le_trans (trim_len _) h.reason.1
    · intro c hc
      refine h.reason.2 c ?_
      rw [h1]; simp [hc]
  constructor
  · intro hs
    by_cases hne : trim r.reason = []
    · exfalso
      obtain ⟨v, g, d, g', x, h1, h2, h3, h4, _, _, h5, _⟩ := hs
      rw [strips_trim] at h1
      have hws : ∀ c ∈ r.reason, isWs c = true := by
        obtain ⟨a, b, e, h2, h3, _⟩ := (strips_trim r.reason _).2 rfl
        rw [hne] at e
        intro c hc
        rw [e] at hc
        simp only [List.append_nil, List.mem_append] at hc
        rcases hc with hc | hc
        · exact h2 c hc
        · exact h3 c hc
      have ht : trim ("SIP/2.0 ".toList ++ showNat r.code ++ " ".toList ++ r.reason) = "SIP/2.0 ".toList ++ showNat r.code := by
        have := trim_pad [] ("SIP/2.0 ".toList ++ showNat r.code) (" ".toList ++ r.reason) (by simp) ?_ ?_
        · simpa only [List.nil_append, List.append_assoc] using this
        · intro c hc
          rcases List.mem_append.1 hc with hc | hc
          · have : c = ' ' := by simpa using hc
            subst this; decide
          · exact hws c hc
        · refine ⟨?_, ?_⟩
          · intro c hc
            have : c = 'S' := by simpa using hc.symm
            subst this
            decide
          · intro c hc
            rw [List.getLast?_append] at hc
            cases hg : (showNat r.code).getLast? with
            | none => exact absurd (List.getLast?_eq_none_iff.1 hg) (showNat_ne_nil _)
            | some x =>
              rw [hg] at hc
              simp only [Option.some_or, Option.some.injEq] at hc
              subst hc
              exact isDigit_not_ws _ (showNat_digits _ _ (List.mem_of_getLast? hg))
      rw [ht] at h1
      have hv : v.length = 7 := by
        rw [sameName_iff, eqIgnoreCase, beq_iff_eq] at h2
        have := congrArg List.length h2
        simpa [lower] using this
      have hd : "SIP/2.0 ".toList ++ showNat r.code = "SIP/2.0".toList ++ (' ' :: showNat r.code) := rfl
      rw [hd] at h1
      simp only [List.append_assoc] at h1
      have h6 := (List.append_inj h1 (by rw [hv]; rfl)).2
      cases g with
      | nil => exact h3.1 rfl
      | cons y g =>
        simp only [List.cons_append, List.cons.injEq] at h6
        cases g' with
        | nil => exact h5.1 rfl
        | cons z g' =>
          have hz := h5.2 z (by simp)
          have hm : z ∈ showNat r.code := by rw [← h6.2]; simp
          have := showNat_digits _ _ hm
          rcases hz with rfl | rfl <;> exact absurd this (by decide)
    · obtain ⟨rfl, rfl⟩ := statusLine_unique (hexist hne) hs
      exact ⟨rfl, rfl, hne⟩
  · rintro ⟨rfl, rfl, hne⟩
    exact hexist hne

end Siphon.Parse
