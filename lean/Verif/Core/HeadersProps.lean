import Verif.Core.HeadersSpec
import Verif.Base.CharLemmas
/-!
# C24 (header collections) and the header half of C23 (no header injection)
-/
set_option linter.unusedSimpArgs false
namespace Siphon
open HdrSpec

/-! ## Lemmas -/

theorem charSame_iff (a b : Char) : CharSame a b ↔ a.toLower = b.toLower := by
  unfold CharSame
  rw [char_eq_iff a.toLower, toLower_toNat, toLower_toNat, char_eq_iff a b]
  constructor
  · rintro (h | ⟨k, hk, h | h⟩)
    · rw [h]
    · repeat' split
      all_goals omega
    · repeat' split
      all_goals omega
  · intro h
    by_cases he : a.toNat = b.toNat
    · exact Or.inl he
    · right
      split at h <;> split at h
      · omega
      · refine ⟨a.toNat - 65, by omega, Or.inl (by omega)⟩
      · refine ⟨b.toNat - 65, by omega, Or.inr (by omega)⟩
      · omega

theorem sameName_iff (s t : Str) : SameName s t ↔ eqIgnoreCase s t = true := by
  unfold eqIgnoreCase lower
  rw [beq_iff_eq]
  induction s generalizing t with
  | nil =>
    constructor
    · intro h; cases h; rfl
    · intro h
      cases t with
      | nil => exact .nil
      | cons b t => simp at h
  | cons a s ih =>
    constructor
    · intro h
      cases h with
      | cons h1 h2 => simp only [List.map_cons, (charSame_iff _ _).mp h1, (ih _).mp h2]
    · intro h
      cases t with
      | nil => simp at h
      | cons b t =>
        simp only [List.map_cons, List.cons.injEq] at h
        exact .cons ((charSame_iff _ _).mpr h.1) ((ih _).mpr h.2)

theorem nameEq_iff (h : Header) (n : Str) : h.nameEq n = true ↔ SameName h.name n :=
  (sameName_iff _ _).symm

theorem isHeaderNameChar_iff (c : Char) : isHeaderNameChar c = true ↔ TokenChar c := by
  unfold isHeaderNameChar TokenChar
  simp [isAlnum_iff, char_eq_iff]
  omega

theorem tokenChar_not_control (c : Char) (h : TokenChar c) : isAsciiControl c = false := by
  rw [← isHeaderNameChar_iff] at h
  simp [isHeaderNameChar, isAlnum_iff, char_eq_iff] at h
  have : ¬ (isAsciiControl c = true) := by
    simp only [isAsciiControl, Bool.or_eq_true, decide_eq_true_eq, beq_iff_eq]
    omega
  simpa using this

theorem validateHeaderName_ok_iff (n : Str) :
    validateHeaderName n = .ok () ↔ Token n ∧ utf8Len n ≤ 128 := by
  unfold validateHeaderName MAX_HEADER_NAME_LENGTH Token
  constructor
  · intro h
    split at h; · simp at h
    split at h; · simp at h
    split at h; · simp at h
    split at h; · simp at h
    rename_i h1 h2 _ h4
    simp only [Bool.not_eq_true', Bool.not_eq_false, List.all_eq_true] at h4
    exact ⟨⟨by simpa using h1, fun c hc => (isHeaderNameChar_iff c).mp (h4 c hc)⟩, by omega⟩
  · rintro ⟨⟨h1, h3⟩, h2⟩
    rw [if_neg (by simpa using h1), if_neg (by omega), if_neg, if_neg]
    · simp only [Bool.not_eq_true', Bool.not_eq_false, List.all_eq_true]
      exact fun c hc => (isHeaderNameChar_iff c).mpr (h3 c hc)
    · simp only [List.any_eq_true, not_exists, not_and]
      intro c hc
      simp [tokenChar_not_control c (h3 c hc)]

theorem validateHeaderValue_ok_iff (v : Str) :
    validateHeaderValue v = .ok () ↔ OneLine v ∧ utf8Len v ≤ 8192 := by
  unfold validateHeaderValue MAX_HEADER_VALUE_LENGTH OneLine
  constructor
  · intro h
    split at h; · simp at h
    split at h; · simp at h
    split at h; · simp at h
    rename_i h1 h2 h3
    simp only [Bool.or_eq_true, List.contains_iff_mem, not_or] at h2
    simp only [List.contains_iff_mem] at h3
    exact ⟨⟨h2.1, h2.2, h3⟩, by omega⟩
  · rintro ⟨⟨h1, h2, h3⟩, h4⟩
    rw [if_neg (by omega), if_neg, if_neg]
    · simpa using h3
    · simp [h1, h2]

theorem header_new_ok_iff (n v : Str) (h : Header) :
    Header.new n v = .ok h ↔
      h = ⟨n, v⟩ ∧ Token n ∧ utf8Len n ≤ 128 ∧ OneLine v ∧ utf8Len v ≤ 8192 := by
  unfold Header.new
  constructor
  · intro he
    split at he; · simp at he
    split at he; · simp at he
    rename_i h1 _ h2
    simp only [Except.ok.injEq] at he
    have a := (validateHeaderName_ok_iff n).mp h1
    have b := (validateHeaderValue_ok_iff v).mp h2
    exact ⟨he.symm, a.1, a.2, b.1, b.2⟩
  · rintro ⟨rfl, h1, h2, h3, h4⟩
    rw [(validateHeaderName_ok_iff n).mpr ⟨h1, h2⟩]
    simp only
    rw [(validateHeaderValue_ok_iff v).mpr ⟨h3, h4⟩]

/-! ## C23, collection side: whatever strings were supplied, what is stored is one clean line -/

/-- `Header::new` succeeds exactly for a token name (≤ 128 bytes) and a value without CR, LF, NUL
(≤ 8192 bytes), and stores the two strings as given. -/
theorem C23_header_new (n v : Str) :
    (∃ h, Header.new n v = .ok h) ↔
      (Token n ∧ utf8Len n ≤ 128 ∧ OneLine v ∧ utf8Len v ≤ 8192) := by
  constructor
  · rintro ⟨h, hh⟩; exact ((header_new_ok_iff n v h).mp hh).2
  · intro h; exact ⟨⟨n, v⟩, (header_new_ok_iff n v _).mpr ⟨rfl, h⟩⟩

theorem C23_header_stored (n v : Str) (h : Header) (hh : Header.new n v = .ok h) :
    h.name = n ∧ h.value = v := by
  have := ((header_new_ok_iff n v h).mp hh).1
  subst this; exact ⟨rfl, rfl⟩

example : ∃ h, Header.new "Subject".toList "hello; x=\"y\"".toList = .ok h := ⟨_, rfl⟩
example : Header.new "Subject".toList "a\r\nEvil: 1".toList = .error .invalidValue := rfl
example : Header.new "Evil:\r\n".toList "a".toList = .error .invalidName := rfl

theorem mem_overwriteFirst (n v : Str) : ∀ (l r : List Header),
    Headers.overwriteFirst n v l = some r → ∀ h ∈ r, (h ∈ l) ∨ (h.value = v ∧ ∃ h' ∈ l, h'.name = h.name)
  | [], r, e => by simp [Headers.overwriteFirst] at e
  | x :: t, r, e => by
    unfold Headers.overwriteFirst at e
    split at e
    · simp only [Option.some.injEq] at e
      subst e
      intro h hm
      rcases List.mem_cons.mp hm with rfl | hm
      · exact Or.inr ⟨rfl, x, by simp, rfl⟩
      · exact Or.inl (by simp [hm])
    · simp only [Option.map_eq_some_iff] at e
      obtain ⟨r', e', rfl⟩ := e
      intro h hm
      rcases List.mem_cons.mp hm with rfl | hm
      · exact Or.inl (by simp)
      · rcases mem_overwriteFirst n v t r' e' h hm with h1 | ⟨h1, h', h2, h3⟩
        · exact Or.inl (by simp [h1])
        · exact Or.inr ⟨h1, h', by simp [h2], h3⟩

theorem length_overwriteFirst (n v : Str) : ∀ (l r : List Header),
    Headers.overwriteFirst n v l = some r → r.length = l.length
  | [], r, e => by simp [Headers.overwriteFirst] at e
  | x :: t, r, e => by
    unfold Headers.overwriteFirst at e
    split at e
    · simp only [Option.some.injEq] at e; subst e; simp
    · simp only [Option.map_eq_some_iff] at e
      obtain ⟨r', e', rfl⟩ := e
      simp [length_overwriteFirst n v t r' e']

/-- A stored header also obeys the length limits. -/
def StoredOk (h : Header) : Prop := Clean h ∧ utf8Len h.name ≤ 128 ∧ utf8Len h.value ≤ 8192

def HInv (hs : Headers) : Prop := hs.inner.length ≤ 200 ∧ ∀ h ∈ hs.inner, StoredOk h

theorem builtHeaders_ok (l : List (Str × Str)) : ∀ h ∈ builtHeaders l, StoredOk h := by
  intro h hm
  simp only [builtHeaders, List.mem_filterMap] at hm
  obtain ⟨p, _, hp⟩ := hm
  rcases he : Header.new p.1 p.2 with e | h'
  · rw [he] at hp; simp [Except.toOption] at hp
  · rw [he] at hp
    simp only [Except.toOption, Option.some.injEq] at hp
    subst hp
    obtain ⟨rfl, h1, h2, h3, h4⟩ := (header_new_ok_iff _ _ _).mp he
    exact ⟨⟨h1, h3⟩, h2, h4⟩

theorem storedOk_of_new {n v : Str} {h : Header} (he : Header.new n v = .ok h) : StoredOk h := by
  obtain ⟨rfl, h1, h2, h3, h4⟩ := (header_new_ok_iff _ _ _).mp he
  exact ⟨⟨h1, h3⟩, h2, h4⟩

theorem HInv_step (hs : Headers) (op : HdrOp) (hi : HInv hs) : HInv (op.run hs) := by
  obtain ⟨hl, hm⟩ := hi
  cases op with
  | push n v =>
    simp only [HdrOp.run, Headers.push]
    by_cases hc : hs.inner.length ≥ MAX_HEADERS
    · rw [if_pos hc]; exact ⟨hl, hm⟩
    · rw [if_neg hc]
      rcases he : Header.new n v with e | h
      · exact ⟨hl, hm⟩
      · refine ⟨by simp [MAX_HEADERS] at hc ⊢; omega, ?_⟩
        intro x hx
        simp only [List.mem_append, List.mem_singleton] at hx
        rcases hx with hx | rfl
        · exact hm x hx
        · exact storedOk_of_new he
  | pushHeader n v =>
    simp only [HdrOp.run, Headers.pushHeader]
    rcases he : Header.new n v with e | h
    · exact ⟨hl, hm⟩
    · simp only
      by_cases hc : hs.inner.length ≥ MAX_HEADERS
      · rw [if_pos hc]; exact ⟨hl, hm⟩
      · rw [if_neg hc]
        refine ⟨by simp [MAX_HEADERS] at hc ⊢; omega, ?_⟩
        intro x hx
        simp only [List.mem_append, List.mem_singleton] at hx
        rcases hx with hx | rfl
        · exact hm x hx
        · exact storedOk_of_new he
  | remove n =>
    simp only [HdrOp.run, Headers.remove]
    exact ⟨Nat.le_trans (List.length_filter_le _ _) hl, fun h hh => hm h (List.mem_filter.mp hh).1⟩
  | replaceFirst n v =>
    simp only [HdrOp.run, Headers.replaceFirst]
    rcases hv : validateHeaderValue v with e | u
    · exact ⟨hl, hm⟩
    · simp only
      have hv' := (validateHeaderValue_ok_iff v).mp (by cases u; exact hv)
      rcases ho : Headers.overwriteFirst n v hs.inner with _ | r
      · exact ⟨hl, hm⟩
      · refine ⟨by simp only [length_overwriteFirst _ _ _ _ ho]; exact hl, ?_⟩
        intro h hh
        rcases mem_overwriteFirst _ _ _ _ ho h hh with h1 | ⟨h1, h', h2, h3⟩
        · exact hm h h1
        · have := hm h' h2
          refine ⟨⟨h3 ▸ this.1.1, h1 ▸ hv'.1⟩, h3 ▸ this.2.1, h1 ▸ hv'.2⟩
  | setOrPush n v =>
    simp only [HdrOp.run, Headers.setOrPush]
    rcases hn : validateHeaderName n with e | u
    · exact ⟨hl, hm⟩
    · simp only
      have hn' := (validateHeaderName_ok_iff n).mp (by cases u; exact hn)
      rcases hv : validateHeaderValue v with e | u
      · exact ⟨hl, hm⟩
      · simp only
        have hv' := (validateHeaderValue_ok_iff v).mp (by cases u; exact hv)
        rcases ho : Headers.overwriteFirst n v hs.inner with _ | r
        · simp only
          by_cases hc : hs.inner.length ≥ MAX_HEADERS
          · rw [if_pos hc]; exact ⟨hl, hm⟩
          · rw [if_neg hc]
            refine ⟨by simp [MAX_HEADERS] at hc ⊢; omega, ?_⟩
            intro x hx
            simp only [List.mem_append, List.mem_singleton] at hx
            rcases hx with hx | rfl
            · exact hm x hx
            · exact ⟨⟨hn'.1, hv'.1⟩, hn'.2, hv'.2⟩
        · refine ⟨by simp only [length_overwriteFirst _ _ _ _ ho]; exact hl, ?_⟩
          intro h hh
          rcases mem_overwriteFirst _ _ _ _ ho h hh with h1 | ⟨h1, h', h2, h3⟩
          · exact hm h h1
          · have := hm h' h2
            refine ⟨⟨h3 ▸ this.1.1, h1 ▸ hv'.1⟩, h3 ▸ this.2.1, h1 ▸ hv'.2⟩
  | retain f =>
    exact ⟨Nat.le_trans (List.length_filter_le _ _) hl, fun h hh => hm h (List.mem_filter.mp hh).1⟩
  | removeAt i =>
    simp only [HdrOp.run, Headers.removeAt]
    rcases hi : hs.inner[i]? with _ | x
    · exact ⟨hl, hm⟩
    · exact ⟨Nat.le_trans (List.length_eraseIdx_le _ _) hl,
        fun h hh => hm h (List.mem_of_mem_eraseIdx hh)⟩
  | clear => exact ⟨by simp [HdrOp.run, Headers.clear], by simp [HdrOp.run, Headers.clear]⟩
  | fromIter l =>
    refine ⟨by simp [HdrOp.run, Headers.fromIter, MAX_HEADERS]; omega, ?_⟩
    intro h hh
    exact builtHeaders_ok l h (List.mem_of_mem_take hh)
  | tryFromIter l =>
    simp only [HdrOp.run, Headers.tryFromIter]
    by_cases hc : (builtHeaders l).length > MAX_HEADERS
    · rw [if_pos hc]; exact ⟨hl, hm⟩
    · rw [if_neg hc]
      exact ⟨by simp only [MAX_HEADERS] at hc ⊢; omega, fun h hh => builtHeaders_ok l h hh⟩

theorem HInv_runAll (ops : List HdrOp) : HInv (HdrOp.runAll ops) := by
  unfold HdrOp.runAll
  have : ∀ (ops : List HdrOp) (hs : Headers), HInv hs → HInv (ops.foldl HdrOp.run hs) := by
    intro ops
    induction ops with
    | nil => intro hs h; exact h
    | cons op ops ih => intro hs h; exact ih _ (HInv_step hs op h)
  exact this ops _ ⟨by simp [Headers.empty], by simp [Headers.empty]⟩

/-- C23 (collection side): through any history of API calls with any strings whatsoever, every
stored header has a token name and a value free of CR, LF and NUL. -/
theorem C23_stored_clean (ops : List HdrOp) : ∀ h ∈ (HdrOp.runAll ops).inner, Clean h :=
  fun h hh => ((HInv_runAll ops).2 h hh).1

/-- C24: a header collection never exceeds 200 entries, through any history of API calls. -/
theorem C24_bounded (ops : List HdrOp) : (HdrOp.runAll ops).len ≤ 200 := (HInv_runAll ops).1

/-- Stored lengths are bounded too. -/
theorem C24_bounded_lengths (ops : List HdrOp) : ∀ h ∈ (HdrOp.runAll ops).inner,
    utf8Len h.name ≤ 128 ∧ utf8Len h.value ≤ 8192 :=
  fun h hh => ((HInv_runAll ops).2 h hh).2

/-- The bound is reached, and the next push is refused. -/
theorem C24_full_refuses (ops : List HdrOp) (hfull : (HdrOp.runAll ops).len = 200) (n v : Str) :
    (HdrOp.runAll ops).push n v = .error .tooMany := by
  simp only [Headers.len] at hfull
  simp [Headers.push, MAX_HEADERS, hfull]

example : (HdrOp.runAll [.push "Via".toList "a".toList, .push "bad name".toList [],
    .setOrPush "via".toList "b".toList, .pushHeader "To".toList "x\n".toList]).inner
      = [⟨"Via".toList, "b".toList⟩] := by decide +kernel

/-! ## C24: look-up -/

/-- `get` returns the value of the first header with that name, case-insensitively. -/
theorem C24_get (hs : Headers) (n v : Str) :
    hs.get n = some v ↔ ∃ pre h post, hs.inner = pre ++ h :: post ∧ SameName h.name n ∧
      h.value = v ∧ ∀ x ∈ pre, ¬ SameName x.name n := by
  unfold Headers.get Headers.getHeader
  simp only [Option.map_eq_some_iff, List.find?_eq_some_iff_append]
  constructor
  · rintro ⟨h, ⟨h1, pre, post, h2, h3⟩, rfl⟩
    refine ⟨pre, h, post, h2, (nameEq_iff _ _).mp h1, rfl, ?_⟩
    intro x hx hs'
    have := h3 x hx
    rw [(nameEq_iff _ _).mpr hs'] at this
    simp at this
  · rintro ⟨pre, h, post, h1, h2, rfl, h3⟩
    refine ⟨h, ⟨(nameEq_iff _ _).mpr h2, pre, post, h1, ?_⟩, rfl⟩
    intro x hx
    have := h3 x hx
    rw [← nameEq_iff] at this
    simp [this]

/-- `get` misses exactly when no header has that name. -/
theorem C24_get_none (hs : Headers) (n : Str) :
    hs.get n = none ↔ ∀ h ∈ hs.inner, ¬ SameName h.name n := by
  unfold Headers.get Headers.getHeader
  simp only [Option.map_eq_none_iff, List.find?_eq_none, nameEq_iff]

/-- `get_all` returns the values of exactly the headers with that name, in insertion order. -/
theorem C24_getAll (hs : Headers) (n : Str) : Selects n hs.inner (hs.getAll n) := by
  unfold Headers.getAll
  generalize hs.inner = l
  induction l with
  | nil => exact .nil
  | cons h t ih =>
    by_cases hc : h.nameEq n = true
    · simp only [List.filter_cons_of_pos (p := fun x => Header.nameEq x n) hc, List.map_cons]
      exact .take ((nameEq_iff _ _).mp hc) ih
    · rw [List.filter_cons_of_neg (p := fun x => Header.nameEq x n) hc]
      exact .skip (fun hs' => hc ((nameEq_iff _ _).mpr hs')) ih

/-- The selection is unique, so `C24_getAll` determines `get_all`. -/
theorem selects_unique {n : Str} {l : List Header} {a b : List Str} (ha : Selects n l a)
    (hb : Selects n l b) : a = b := by
  induction ha generalizing b with
  | nil => cases hb; rfl
  | take h1 _ ih =>
    cases hb with
    | take _ h2 => rw [ih h2]
    | skip h2 _ => exact absurd h1 h2
  | skip h1 _ ih =>
    cases hb with
    | take h2 _ => exact absurd h2 h1
    | skip _ h2 => exact ih h2

theorem C24_contains (hs : Headers) (n : Str) :
    hs.contains n = true ↔ ∃ h ∈ hs.inner, SameName h.name n := by
  simp [Headers.contains, nameEq_iff]

theorem C24_count (hs : Headers) (n : Str) : hs.count n = (hs.getAll n).length := by
  simp [Headers.count, Headers.getAll]

example : (Headers.mk [⟨"Via".toList, "a".toList⟩, ⟨"To".toList, "t".toList⟩,
    ⟨"VIA".toList, "b".toList⟩]).getAll "via".toList = ["a".toList, "b".toList] := by decide +kernel

/-! ## C24: every update keeps the relative order and touches only what it names -/

theorem sameName_refl (s : Str) : SameName s s := (sameName_iff s s).mpr (by simp [eqIgnoreCase])

theorem sameName_symm {s t : Str} (h : SameName s t) : SameName t s := by
  rw [sameName_iff] at h ⊢
  simp only [eqIgnoreCase, beq_iff_eq] at h ⊢
  exact h.symm

theorem sameName_trans {s t u : Str} (h : SameName s t) (h' : SameName t u) : SameName s u := by
  rw [sameName_iff] at h h' ⊢
  simp only [eqIgnoreCase, beq_iff_eq] at h h' ⊢
  exact h.trans h'

/-- A successful `push` appends one header at the end; nothing else changes. -/
theorem C24_push (hs r : Headers) (n v : Str) (h : hs.push n v = .ok r) :
    r.inner = hs.inner ++ [⟨n, v⟩] := by
  unfold Headers.push at h
  split at h; · simp at h
  rcases he : Header.new n v with e | x
  · rw [he] at h; simp at h
  · rw [he] at h
    simp only [Except.ok.injEq] at h
    subst h
    simp [((header_new_ok_iff _ _ _).mp he).1]

/-- `push` succeeds whenever there is room and the strings are legal. -/
theorem C24_push_ok (hs : Headers) (n v : Str) (hroom : hs.len < 200) (hn : Token n)
    (hn' : utf8Len n ≤ 128) (hv : OneLine v) (hv' : utf8Len v ≤ 8192) :
    hs.push n v = .ok ⟨hs.inner ++ [⟨n, v⟩]⟩ := by
  unfold Headers.len at hroom
  unfold Headers.push
  rw [if_neg (by simp only [MAX_HEADERS]; omega), (header_new_ok_iff n v _).mpr ⟨rfl, hn, hn', hv, hv'⟩]

/-- `remove` deletes every header of that name, reports how many, and keeps all others in order. -/
theorem C24_remove (hs : Headers) (n : Str) :
    (∀ h ∈ (hs.remove n).1.inner, ¬ SameName h.name n) ∧
    (hs.remove n).1.inner.Sublist hs.inner ∧
    (∀ m, ¬ SameName m n → (hs.remove n).1.getAll m = hs.getAll m) ∧
    (hs.remove n).2 = (hs.getAll n).length := by
  refine ⟨?_, ?_, ?_, ?_⟩
  · intro h hh hs'
    simp only [Headers.remove, List.mem_filter, Bool.not_eq_true'] at hh
    rw [(nameEq_iff _ _).mpr hs'] at hh
    simp at hh
  · exact List.filter_sublist
  · intro m hm
    simp only [Headers.remove, Headers.getAll, List.filter_filter]
    congr 1
    apply List.filter_congr
    intro x _
    by_cases hx : x.nameEq m = true
    · have : x.nameEq n = false := by
        rw [Bool.eq_false_iff]
        intro hx'
        exact hm (sameName_trans (sameName_symm ((nameEq_iff _ _).mp hx)) ((nameEq_iff _ _).mp hx'))
      simp [hx, this]
    · simp [Bool.eq_false_iff.mpr hx]
  · simp only [Headers.remove, Headers.getAll, List.length_map]
    generalize hs.inner = l
    induction l with
    | nil => rfl
    | cons h t ih =>
      have hle := List.length_filter_le (fun x => !Header.nameEq x n) t
      by_cases hc : h.nameEq n = true
      · rw [List.filter_cons_of_pos (p := fun x => Header.nameEq x n) hc,
          List.filter_cons_of_neg (by simp [hc])]
        simp only [List.length_cons]
        omega
      · rw [List.filter_cons_of_neg (p := fun x => Header.nameEq x n) hc,
          List.filter_cons_of_pos (by simp [hc])]
        simp only [List.length_cons]
        omega

theorem overwriteFirst_spec (n v : Str) : ∀ l,
    (Headers.overwriteFirst n v l = none ∧ ∀ h ∈ l, ¬ SameName h.name n) ∨
    (∃ pre h post, l = pre ++ h :: post ∧ SameName h.name n ∧ (∀ x ∈ pre, ¬ SameName x.name n) ∧
      Headers.overwriteFirst n v l = some (pre ++ ⟨h.name, v⟩ :: post))
  | [] => Or.inl ⟨rfl, by simp⟩
  | x :: t => by
    by_cases hc : x.nameEq n = true
    · right
      refine ⟨[], x, t, rfl, (nameEq_iff _ _).mp hc, by simp, ?_⟩
      simp [Headers.overwriteFirst, hc]
    · have hc' : ¬ SameName x.name n := fun h => hc ((nameEq_iff _ _).mpr h)
      rcases overwriteFirst_spec n v t with ⟨h1, h2⟩ | ⟨pre, h, post, h1, h2, h3, h4⟩
      · left
        refine ⟨by simp [Headers.overwriteFirst, hc, h1], ?_⟩
        intro h hh
        rcases List.mem_cons.mp hh with rfl | hh
        · exact hc'
        · exact h2 h hh
      · right
        refine ⟨x :: pre, h, post, by simp [h1], h2, ?_, by simp [Headers.overwriteFirst, hc, h4]⟩
        intro y hy
        rcases List.mem_cons.mp hy with rfl | hy
        · exact hc'
        · exact h3 y hy

/-- `replace_first`: with a legal value it changes the value of the first header of that name only
(keeping its spelling and position) and returns true, or returns false and changes nothing when
there is none. -/
theorem C24_replaceFirst (hs : Headers) (n v : Str) (hv : OneLine v) (hv' : utf8Len v ≤ 8192) :
    (hs.replaceFirst n v = .ok (hs, false) ∧ ∀ h ∈ hs.inner, ¬ SameName h.name n) ∨
    (∃ pre h post, hs.inner = pre ++ h :: post ∧ SameName h.name n ∧
      (∀ x ∈ pre, ¬ SameName x.name n) ∧
      hs.replaceFirst n v = .ok (⟨pre ++ ⟨h.name, v⟩ :: post⟩, true)) := by
  have hval := (validateHeaderValue_ok_iff v).mpr ⟨hv, hv'⟩
  rcases overwriteFirst_spec n v hs.inner with ⟨h1, h2⟩ | ⟨pre, h, post, h1, h2, h3, h4⟩
  · left; exact ⟨by simp [Headers.replaceFirst, hval, h1], h2⟩
  · right
    exact ⟨pre, h, post, h1, h2, h3, by simp [Headers.replaceFirst, hval, h4]⟩

/-- `set_or_push` with legal strings: overwrites the first header of that name in place, otherwise
appends one when there is room, otherwise is refused. -/
theorem C24_setOrPush (hs : Headers) (n v : Str) (hn : Token n) (hn' : utf8Len n ≤ 128)
    (hv : OneLine v) (hv' : utf8Len v ≤ 8192) :
    ((∀ h ∈ hs.inner, ¬ SameName h.name n) ∧ hs.len < 200 ∧
      hs.setOrPush n v = .ok ⟨hs.inner ++ [⟨n, v⟩]⟩) ∨
    ((∀ h ∈ hs.inner, ¬ SameName h.name n) ∧ 200 ≤ hs.len ∧ hs.setOrPush n v = .error .tooMany) ∨
    (∃ pre h post, hs.inner = pre ++ h :: post ∧ SameName h.name n ∧
      (∀ x ∈ pre, ¬ SameName x.name n) ∧
      hs.setOrPush n v = .ok ⟨pre ++ ⟨h.name, v⟩ :: post⟩) := by
  have hval := (validateHeaderValue_ok_iff v).mpr ⟨hv, hv'⟩
  have hnam := (validateHeaderName_ok_iff n).mpr ⟨hn, hn'⟩
  unfold Headers.len
  rcases overwriteFirst_spec n v hs.inner with ⟨h1, h2⟩ | ⟨pre, h, post, h1, h2, h3, h4⟩
  · by_cases hc : hs.inner.length < 200
    · left
      refine ⟨h2, hc, ?_⟩
      simp only [Headers.setOrPush, hval, hnam, h1]
      rw [if_neg (by simp only [MAX_HEADERS]; omega)]
    · right; left
      refine ⟨h2, by omega, ?_⟩
      simp only [Headers.setOrPush, hval, hnam, h1]
      rw [if_pos (by simp only [MAX_HEADERS]; omega)]
  · right; right
    exact ⟨pre, h, post, h1, h2, h3, by simp [Headers.setOrPush, hval, hnam, h4]⟩

/-- `remove_at` deletes exactly the header at that position, and panics only out of range. -/
theorem C24_removeAt (hs : Headers) (i : Nat) :
    (hs.len ≤ i ∧ hs.removeAt i = none) ∨
    (∃ pre h post, hs.inner = pre ++ h :: post ∧ pre.length = i ∧
      hs.removeAt i = some (h, ⟨pre ++ post⟩)) := by
  unfold Headers.len Headers.removeAt
  by_cases hc : i < hs.inner.length
  · right
    refine ⟨hs.inner.take i, hs.inner[i], hs.inner.drop (i + 1), ?_, by simp; omega, ?_⟩
    · simp
    · simp [hc, List.eraseIdx_eq_take_drop_succ]
  · left
    exact ⟨by omega, by simp; omega⟩

example : (Headers.mk [⟨"A".toList, "1".toList⟩, ⟨"b".toList, "2".toList⟩]).setOrPush "B".toList "3".toList
    = .ok ⟨[⟨"A".toList, "1".toList⟩, ⟨"b".toList, "3".toList⟩]⟩ := by decide +kernel

end Siphon
