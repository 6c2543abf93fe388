import Verif.Privacy.Lemmas
import Verif.Dialog.Model
/-!
# Privacy (C111, C112)
-/
namespace Siphon.Priv
open Spec HdrSpec TextSpec Dlg

/-! ## C111: the Privacy header -/

/-- **C111.** A Privacy header is accepted exactly if it is one, and read as what it says. -/
theorem C111_parse (s : Str) (vs : List PValue) : parse s = .ok vs ↔ IsPrivacy s vs := by
  have hlen : utf8Len s = (utf8 s).length := (length_utf8 s).symm
  have hm : MAX_PARSE_INPUT = 256 := rfl
  unfold parse IsPrivacy
  constructor
  · intro h
    split at h
    · cases h
    rename_i h1
    split at h
    · cases h
    rename_i ws h2
    rw [new_iff] at h
    obtain ⟨rfl, h3⟩ := h
    exact ⟨by omega, h3, _, (pieces_iff _ _ _).2 rfl, (allSay_iff _ _).2 h2⟩
  · rintro ⟨h1, h2, ps, h3, h4⟩
    rw [if_neg (by omega)]
    rw [pieces_iff] at h3
    subst h3
    rw [allSay_iff] at h4
    rw [h4]
    exact (new_iff vs vs).2 ⟨rfl, h2⟩

theorem display_cons (v w : PValue) (t : List PValue) : display (v :: w :: t) = v.asStr ++ ';' :: (' ' :: display (w :: t)) := by
  rw [display]
  · simp
  · simp

theorem asStr_word (v : PValue) : Word v.asStr v := by
  cases v <;> constructor

theorem asStr_plain (v : PValue) : ';' ∉ v.asStr ∧ trim v.asStr = v.asStr ∧ trim (' ' :: v.asStr) = v.asStr ∧ utf8Len v.asStr ≤ 8 := by
  cases v <;> decide

theorem says_self (v : PValue) : Says v.asStr v ∧ Says (' ' :: v.asStr) v := by
  constructor
  · exact ⟨_, _, (strips_trim _ _).2 rfl, by rw [(asStr_plain v).2.1]; exact sameName_refl _, asStr_word v⟩
  · exact ⟨_, _, (strips_trim _ _).2 rfl, by rw [(asStr_plain v).2.2.1]; exact sameName_refl _, asStr_word v⟩

/-- The pieces of a written header. -/
def writtenPieces : List PValue → List Str
  | [] => []
  | v :: t => v.asStr :: t.map (fun v => ' ' :: v.asStr)

theorem display_pieces : ∀ vs : List PValue, vs ≠ [] → splitChar ';' (display vs) = writtenPieces vs ∧
    splitChar ';' (' ' :: display vs) = vs.map (fun v => ' ' :: v.asStr)
  | [], h => absurd rfl h
  | [v], _ => by
    have hv := (asStr_plain v).1
    constructor
    · show splitChar ';' v.asStr = [v.asStr]
      exact splitChar_of_not_mem _ _ hv
    · show splitChar ';' (' ' :: v.asStr) = [' ' :: v.asStr]
      exact splitChar_of_not_mem _ _ (by simp [hv])
  | v :: w :: t, _ => by
    have hv := (asStr_plain v).1
    obtain ⟨_, i2⟩ := display_pieces (w :: t) (by simp)
    rw [display_cons]
    constructor
    · rw [splitChar_append_sep _ _ _ hv, i2]; rfl
    · have e : ' ' :: (v.asStr ++ ';' :: (' ' :: display (w :: t))) = (' ' :: v.asStr) ++ ';' :: (' ' :: display (w :: t)) := rfl
      rw [e, splitChar_append_sep _ _ _ (by simp [hv]), i2]; rfl

theorem display_short : ∀ vs : List PValue, utf8Len (display vs) ≤ 10 * vs.length
  | [] => by decide
  | [v] => by
    have := (asStr_plain v).2.2.2
    show utf8Len v.asStr ≤ 10
    omega
  | v :: w :: t => by
    have h1 := (asStr_plain v).2.2.2
    have h2 := display_short (w :: t)
    have e : utf8Len (display (v :: w :: t)) = utf8Len v.asStr + (1 + (1 + utf8Len (display (w :: t)))) := by
      rw [display_cons]
      have e1 : (';' : Char).utf8Size = 1 := by decide
      have e2 : (' ' : Char).utf8Size = 1 := by decide
      simp [utf8Len, e1, e2]
    rw [e]
    simp only [List.length_cons] at h2 ⊢
    omega

/-- **C111.** A Privacy header that is written is read back. -/
theorem C111_roundtrip (vs : List PValue) (h : Proper vs) : parse (display vs) = .ok vs := by
  rw [C111_parse]
  refine ⟨?_, h, _, (pieces_iff _ _ _).2 (display_pieces vs h.1).1.symm, ?_⟩
  · have := display_short vs
    have := h.2.1
    rw [length_utf8]
    omega
  · have hall : ∀ t : List PValue, AllSay (t.map (fun v => ' ' :: v.asStr)) t := by
      intro t
      induction t with
      | nil => exact .nil
      | cons v t ih => exact .say (says_self v).2 ih
    match vs, h.1 with
    | v :: t, _ => exact .say (says_self v).1 (hall t)

/-- **C111.** Values can be put together exactly if there are one to ten, `none` only alone. -/
theorem C111_new (vs r : List PValue) : new vs = .ok r ↔ r = vs ∧ Proper vs := new_iff vs r

/-- **C111.** The library asks for privacy exactly if the first Privacy header is one and asks for something. -/
theorem C111_required (hs : Headers) :
    required hs = true ↔ ∃ s more vs, Selects "Privacy".toList hs.inner (s :: more) ∧ IsPrivacy s vs ∧ vs ≠ [.none] := by
  unfold required ofHeaders
  cases hg : hs.get "Privacy".toList with
  | none =>
    simp only [Bool.false_eq_true, false_iff]
    rintro ⟨s, more, vs, h, _⟩
    rw [get_none_iff] at hg
    have := selects_unique hg h
    cases this
  | some s =>
    obtain ⟨more, hsel⟩ := (get_iff _ _ _).1 hg
    simp only
    cases hp : parse s with
    | error e =>
      simp only [Except.toOption, Bool.false_eq_true, false_iff]
      rintro ⟨s', more', vs, h, h2, _⟩
      have := selects_unique hsel h
      cases this
      rw [← C111_parse, hp] at h2
      cases h2
    | ok vs =>
      simp only [Except.toOption]
      have hv := (C111_parse _ _).1 hp
      constructor
      · intro h
        refine ⟨s, more, vs, hsel, hv, ?_⟩
        rintro rfl
        exact absurd h (by decide)
      · rintro ⟨s', more', vs', h, h2, h3⟩
        have := selects_unique hsel h
        cases this
        rw [← C111_parse, hp] at h2
        cases h2
        cases hc : vs.contains PValue.none with
        | false => rfl
        | true => exact absurd (hv.2.1.2.2 (List.contains_iff_mem.1 hc)) h3

example : parse " ID ;; Critical".toList = .ok [.id, .critical] ∧ Proper [.id, .critical] := ⟨by decide, by simp [Proper]⟩

/-- An unknown word makes the whole header count for nothing: the caller's wish for privacy is lost. -/
theorem C111_lost : ∃ hs : Headers, hs.get "Privacy".toList = some "id;history".toList ∧ required hs = false :=
  ⟨⟨[⟨"Privacy".toList, "id;history".toList⟩]⟩, by decide, by decide⟩

/-! ## C112: enforcement -/

theorem without_append (names : List String) (a b : List Header) : without names (a ++ b) = without names a ++ without names b := by
  unfold without; exact List.filter_append ..

theorem without_without (n m : List String) (l : List Header) : without n (without m l) = without (m ++ n) l := by
  unfold without
  rw [List.filter_filter]
  apply List.filter_congr
  intro x _
  rw [List.any_append, Bool.not_or, Bool.and_comm]

theorem without_masks (names : List String) (name : String) (o : Option Str)
    (h : ∀ m ∈ names, lower name.toList ≠ lower m.toList) : without names (masks name o) = masks name o := by
  cases o with
  | none => rfl
  | some v =>
    unfold without masks
    rw [List.filter_cons_of_pos]
    · rfl
    · have : names.any (fun n => (mask name v).nameEq n.toList) = false := by
        rw [List.any_eq_false]
        intro m hm
        unfold mask Header.nameEq eqIgnoreCase
        simpa using h m hm
      rw [this]; rfl

/-- The first value of a name. -/
def first (n : String) (l : List Header) : Option Str := (l.find? (·.nameEq n.toList)).map (·.value)

theorem first_without (names : List String) (n : String) (l : List Header) (h : ∀ m ∈ names, lower n.toList ≠ lower m.toList) :
    first n (without names l) = first n l := by
  unfold first
  rw [find_without _ _ _ h]

theorem first_masks (n name : String) (o : Option Str) (l : List Header) (h : lower name.toList ≠ lower n.toList) :
    first n (l ++ masks name o) = first n l := by
  unfold first
  rw [List.find?_append]
  have : (masks name o).find? (·.nameEq n.toList) = Option.none := by
    cases o with
    | none => rfl
    | some v =>
      unfold masks
      rw [List.find?_cons]
      have : (mask name v).nameEq n.toList = false := by
        unfold mask Header.nameEq eqIgnoreCase
        simpa using h
      rw [this]
      rfl
  rw [this]
  cases l.find? (·.nameEq n.toList) <;> rfl

/-- A value too long to be replaced. -/
def long : Option Str → Bool
  | some v => decide (1024 < utf8Len v)
  | Option.none => false

theorem hinv_masks {l : List Header} (h : HInv ⟨l⟩) (name : String) (hn : Token name.toList) (hnl : utf8Len name.toList ≤ 128)
    (hlong : long (first name l) = false) : HInv ⟨without [name] l ++ masks name (first name l)⟩ := by
  cases hf : first name l with
  | none =>
    have := hinv_without h [name]
    simpa [masks] using this
  | some v =>
    have hg : (Headers.mk l).get name.toList = some v := hf
    obtain ⟨x, hx, rfl, hxn⟩ := get_mem hg
    have hlt := length_without_lt hx hxn
    rw [hf] at hlong
    have hl' : utf8Len x.value ≤ 1024 := by
      have := of_decide_eq_false hlong
      omega
    obtain ⟨m1, m2⟩ := mask_ok (h.2 x hx).1.2 hl' name
    refine ⟨?_, ?_⟩
    · have := h.1
      simp only [List.length_append, masks, List.length_cons, List.length_nil] at *
      omega
    · intro y hy
      rcases List.mem_append.1 hy with hy | hy
      · exact h.2 y (List.mem_filter.1 hy).1
      · simp only [masks, List.mem_singleton] at hy
        subst hy
        exact ⟨⟨hn, m1⟩, hnl, m2⟩

theorem token_from : Token "From".toList ∧ utf8Len "From".toList ≤ 128 := by
  refine ⟨⟨by decide, ?_⟩, by decide⟩
  intro c hc
  exact (isHeaderNameChar_iff c).1 (by revert c; decide)

theorem token_contact : Token "Contact".toList ∧ utf8Len "Contact".toList ≤ 128 := by
  refine ⟨⟨by decide, ?_⟩, by decide⟩
  intro c hc
  exact (isHeaderNameChar_iff c).1 (by revert c; decide)

/-- The four names. -/
def identityNames : List String := ["From", "Contact", "P-Asserted-Identity", "P-Preferred-Identity"]

theorem anonymize_spec (hs : Headers) (hi : HInv hs) :
    anonymize hs =
      if long (first "From" hs.inner) then (hs, some .inputTooLarge)
      else if long (first "Contact" hs.inner) then
        (⟨without ["From"] hs.inner ++ masks "From" (first "From" hs.inner)⟩, some .inputTooLarge)
      else (⟨without identityNames hs.inner ++ masks "From" (first "From" hs.inner) ++ masks "Contact" (first "Contact" hs.inner)⟩,
        Option.none) := by
  obtain ⟨l⟩ := hs
  have r1 := replace_spec ⟨l⟩ hi "From" token_from.1 token_from.2
  have eg : (Headers.mk l).get "From".toList = first "From" l := rfl
  have r1 : replaceHeader ⟨l⟩ "From" = if long (first "From" l) = true then (⟨l⟩, some .inputTooLarge)
      else (⟨without ["From"] l ++ masks "From" (first "From" l)⟩, Option.none) := by
    rw [r1, eg]; cases first "From" l <;> rfl
  unfold anonymize
  rw [r1]
  by_cases h1 : long (first "From" l) = true
  · rw [if_pos h1, if_pos h1]
  · rw [if_neg h1, if_neg h1]
    simp only
    have hi2 := hinv_masks hi "From" token_from.1 token_from.2 (by simpa using h1)
    have r2 := replace_spec _ hi2 "Contact" token_contact.1 token_contact.2
    have eg2 : (Headers.mk (without ["From"] l ++ masks "From" (first "From" l))).get "Contact".toList = first "Contact" l := by
      show first "Contact" (without ["From"] l ++ masks "From" (first "From" l)) = _
      rw [first_masks _ _ _ _ (by decide), first_without _ _ _ (by decide)]
    have r2 : replaceHeader ⟨without ["From"] l ++ masks "From" (first "From" l)⟩ "Contact" =
        if long (first "Contact" l) = true then (⟨without ["From"] l ++ masks "From" (first "From" l)⟩, some .inputTooLarge)
        else (⟨without ["Contact"] (without ["From"] l ++ masks "From" (first "From" l)) ++ masks "Contact" (first "Contact" l)⟩,
          Option.none) := by
      rw [r2, eg2]; cases first "Contact" l <;> rfl
    rw [r2]
    by_cases h2 : long (first "Contact" l) = true
    · rw [if_pos h2, if_pos h2]
    · rw [if_neg h2, if_neg h2]
      simp only
      rw [remove_eq, remove_eq]
      simp only [without_append, without_without]
      rw [without_masks _ "From" _ (by decide), without_masks _ "Contact" _ (by decide)]
      rfl

/-- Whether an overlong value stands in the way. -/
theorem enforce_spec (hs : Headers) (hi : HInv hs) (vs : List PValue) :
    enforce hs vs =
      if hidesIdentity vs then
        if long (first "From" hs.inner) then (⟨without (if hidesHeaders vs then removable else []) hs.inner⟩, some .inputTooLarge)
        else if long (first "Contact" hs.inner) then
          (⟨without ((if hidesHeaders vs then removable else []) ++ ["From"]) hs.inner ++ masks "From" (first "From" hs.inner)⟩,
            some .inputTooLarge)
        else (⟨without (hiddenNames vs) hs.inner ++ masks "From" (first "From" hs.inner) ++ masks "Contact" (first "Contact" hs.inner)⟩,
          Option.none)
      else (⟨without (hiddenNames vs) hs.inner⟩, Option.none) := by
  have e0 : ∀ l : List Header, without [] l = l := by
    intro l
    unfold without
    exact List.filter_eq_self.2 (fun _ _ => rfl)
  unfold enforce
  by_cases h0 : vs.length = 1 ∧ vs.contains .none = true
  · rw [if_pos h0]
    have : vs = [.none] := by
      match vs, h0 with
      | [v], ⟨_, h⟩ =>
        have := List.contains_iff_mem.1 h
        simp only [List.mem_singleton] at this
        rw [← this]
    subst this
    have e1 : hidesIdentity [.none] = false := by decide
    have e2 : hiddenNames [.none] = [] := by decide
    rw [e1, e2, e0]
    rfl
  · rw [if_neg h0]
    simp only
    have e1 : (if hidesHeaders vs then removable.foldl (fun hs n => (hs.remove n.toList).1) hs else hs) =
        ⟨without (if hidesHeaders vs then removable else []) hs.inner⟩ := by
      split
      · have := foldl_remove removable hs
        rw [← this]
      · rw [e0]
    rw [e1]
    cases hid : hidesIdentity vs with
    | false =>
      simp only [Bool.false_eq_true, if_false]
      unfold hiddenNames
      rw [hid]
      simp
    | true =>
      simp only [if_true]
      rw [anonymize_spec _ (hinv_without hi _)]
      have f1 : ∀ n ∈ ["From", "Contact"], first n (without (if hidesHeaders vs then removable else []) hs.inner) = first n hs.inner := by
        intro n hn
        apply first_without
        split
        · revert n; decide
        · intro m hm; cases hm
      simp only [f1 "From" (by simp), f1 "Contact" (by simp), without_without]
      have e3 : hiddenNames vs = (if hidesHeaders vs then removable else []) ++ identityNames := by
        unfold hiddenNames identityNames
        rw [hid]
        rfl
      rw [e3]

theorem masked_masks (n : String) (hs : Headers) : Masked hs.inner n (masks n (first n hs.inner)) := by
  have eg : hs.get n.toList = first n hs.inner := rfl
  cases hf : first n hs.inner with
  | none =>
    rw [hf, get_none_iff] at eg
    exact .absent eg
  | some v =>
    rw [hf, get_iff] at eg
    obtain ⟨more, h⟩ := eg
    exact .present h ((params_iff _ _).2 rfl)

/-- **C112.** What enforcement leaves: the headers that are not hidden, as they were and in their order, and if the identity is
hidden a From and a Contact that name nobody, with the parameters they had. -/
theorem C112_result (hs : Headers) (hi : HInv hs) (vs : List PValue) (r : Headers) (h : enforce hs vs = (r, Option.none)) :
    ∃ kept fr co, Kept vs hs.inner kept ∧ r.inner = kept ++ fr ++ co ∧
      (.id ∈ vs ∨ .user ∈ vs → Masked hs.inner "From" fr ∧ Masked hs.inner "Contact" co) ∧
      (.id ∉ vs → .user ∉ vs → fr = [] ∧ co = []) := by
  rw [enforce_spec hs hi] at h
  split at h
  · rename_i hid
    split at h
    · cases h
    split at h
    · cases h
    cases h
    refine ⟨_, _, _, (kept_iff _ _ _).2 rfl, rfl, fun _ => ⟨masked_masks _ _, masked_masks _ _⟩, ?_⟩
    intro h1 h2
    exfalso
    rcases (hidesIdentity_iff vs).1 hid with h | h
    · exact h1 h
    · exact h2 h
  · rename_i hid
    cases h
    refine ⟨_, [], [], (kept_iff _ _ _).2 rfl, by simp, ?_, fun _ _ => ⟨rfl, rfl⟩⟩
    intro h
    exact absurd ((hidesIdentity_iff vs).2 h) hid

/-- The first header of a name has more than 1024 bytes. -/
def Overlong (l : List Header) (n : String) : Prop := ∃ v more, Selects n.toList l (v :: more) ∧ 1024 < (utf8 v).length

theorem long_iff (n : String) (hs : Headers) : long (first n hs.inner) = true ↔ Overlong hs.inner n := by
  have eg : hs.get n.toList = first n hs.inner := rfl
  rw [← eg]
  constructor
  · intro h
    cases hf : hs.get n.toList with
    | none => rw [hf] at h; cases h
    | some v =>
      obtain ⟨more, hs'⟩ := (get_iff _ _ _).1 hf
      rw [hf] at h
      have := of_decide_eq_true h
      exact ⟨v, more, hs', by rw [length_utf8]; exact this⟩
  · rintro ⟨v, more, h1, h2⟩
    rw [(get_iff hs n.toList v).2 ⟨more, h1⟩]
    rw [length_utf8] at h2
    exact decide_eq_true h2

/-- **C112.** Enforcement fails exactly if the identity is to be hidden and From or Contact is overlong. -/
theorem C112_fails (hs : Headers) (hi : HInv hs) (vs : List PValue) :
    (enforce hs vs).2 ≠ Option.none ↔ (.id ∈ vs ∨ .user ∈ vs) ∧ (Overlong hs.inner "From" ∨ Overlong hs.inner "Contact") := by
  rw [enforce_spec hs hi, ← hidesIdentity_iff, ← long_iff, ← long_iff]
  cases hidesIdentity vs <;> cases long (first "From" hs.inner) <;> cases long (first "Contact" hs.inner) <;> simp

/-- Two collections have the same to show for a name: neither has it, or the first header with it has the same parameters. -/
def SameParams (l l' : List Header) (n : String) : Prop :=
  (Selects n.toList l [] ∧ Selects n.toList l' []) ∨
  ∃ v more v' more' p, Selects n.toList l (v :: more) ∧ Selects n.toList l' (v' :: more') ∧ Params v p ∧ Params v' p

theorem masks_same {n : String} {hs hs' : Headers} (h : SameParams hs.inner hs'.inner n) :
    masks n (first n hs.inner) = masks n (first n hs'.inner) := by
  have eg : hs.get n.toList = first n hs.inner := rfl
  have eg' : hs'.get n.toList = first n hs'.inner := rfl
  rw [← eg, ← eg']
  rcases h with ⟨h1, h2⟩ | ⟨v, more, v', more', p, h1, h2, h3, h4⟩
  · rw [(get_none_iff _ _).2 h1, (get_none_iff _ _).2 h2]
  · rw [(get_iff _ _ _).2 ⟨_, h1⟩, (get_iff _ _ _).2 ⟨_, h2⟩]
    rw [params_iff] at h3 h4
    show [mask n v] = [mask n v']
    unfold mask
    rw [show (splitParams v false false false).2 = p from h3, show (splitParams v' false false false).2 = p from h4]

/-- **C112.** Nothing hidden can be seen: two collections that differ only in hidden headers and in the addresses of From and
Contact look the same afterwards. -/
theorem C112_nothing_seen (hs hs' : Headers) (hi : HInv hs) (hi' : HInv hs') (vs : List PValue) (k : List Header)
    (hk : Kept vs hs.inner k) (hk' : Kept vs hs'.inner k)
    (hp : ∀ n ∈ ["From", "Contact"], SameParams hs.inner hs'.inner n)
    (ho : (enforce hs vs).2 = Option.none) (ho' : (enforce hs' vs).2 = Option.none) :
    (enforce hs vs).1 = (enforce hs' vs).1 := by
  rw [enforce_spec hs hi] at ho ⊢
  rw [enforce_spec hs' hi'] at ho' ⊢
  have e : without (hiddenNames vs) hs.inner = without (hiddenNames vs) hs'.inner := by
    rw [← (kept_iff _ _ _).1 hk, ← (kept_iff _ _ _).1 hk']
  cases hid : hidesIdentity vs with
  | false => simp only [Bool.false_eq_true, if_false]; rw [e]
  | true =>
    rw [hid] at ho ho'
    simp only [if_true] at ho ho' ⊢
    by_cases h1 : long (first "From" hs.inner) = true
    · rw [if_pos h1] at ho; cases ho
    · rw [if_neg h1] at ho ⊢
      by_cases h2 : long (first "Contact" hs.inner) = true
      · rw [if_pos h2] at ho; cases ho
      · rw [if_neg h2]
        by_cases h1' : long (first "From" hs'.inner) = true
        · rw [if_pos h1'] at ho'; cases ho'
        · rw [if_neg h1'] at ho' ⊢
          by_cases h2' : long (first "Contact" hs'.inner) = true
          · rw [if_pos h2'] at ho'; cases ho'
          · rw [if_neg h2', e, masks_same (hp "From" (by simp)), masks_same (hp "Contact" (by simp))]

/-! ### The dialog stays the same -/

theorem tagIn_append : ∀ (a b : List Str), tagIn a = .done Option.none → tagIn (a ++ b) = tagIn b
  | [], _, _ => rfl
  | p :: a, b, h => by
    rw [tagIn] at h
    rw [List.cons_append, tagIn]
    split at h
    · rename_i hl
      rw [if_pos hl]
      split at h
      · cases h
      · rename_i x y hs
        split at h
        · cases h
        · rename_i hn
          rw [if_neg hn]
          exact tagIn_append a b h
    · rename_i hl
      rw [if_neg hl]
      exact tagIn_append a b h

theorem splitChar_append_any (c : Char) : ∀ (a t : Str), splitChar c (a ++ c :: t) = splitChar c a ++ splitChar c t
  | [], t => by simp [splitChar]
  | x :: a, t => by
    rw [List.cons_append, splitChar, splitChar]
    by_cases hx : x = c
    · rw [if_pos hx, if_pos hx, splitChar_append_any c a t]; rfl
    · rw [if_neg hx, if_neg hx, splitChar_append_any c a t]
      cases hs : splitChar c a with
      | nil => exact absurd hs (splitChar_ne_nil _ _)
      | cons p ps => rfl

/-- The tag of a value is that of its parameters, if the address does not hold one. -/
theorem tag_params {a v p : Str} (e : v = a ++ p) (hp : Params v p) (ha : extractTag a = .done Option.none) :
    extractTag v = extractTag p := by
  rcases hp with ⟨a', t, _, _, rfl⟩ | ⟨rfl, _⟩
  · subst e
    unfold extractTag at ha ⊢
    rw [splitChar_append_any, tagIn_append _ _ ha]
    have : splitChar ';' (';' :: t) = [] :: splitChar ';' t := by rw [splitChar]; simp
    rw [this, tagIn, if_neg (by decide)]
  · subst e
    rw [List.append_nil, ha]
    rfl

theorem params_mask (a t : Str) (hp : Params (a ++ t) t) :
    Params ("\"Anonymous\" <sip:anonymous@anonymous.invalid>".toList ++ t) t := by
  have hA : Address "\"Anonymous\" <sip:anonymous@anonymous.invalid>".toList := by
    have h1 : Quoted "Anonymous".toList := by
      repeat (refine .char (by decide) (by decide) ?_)
      exact .nil
    have h2 : Angled "sip:anonymous@anonymous.invalid".toList := by
      repeat (refine .char (by decide) (by decide) ?_)
      exact .nil
    exact .quoted h1 (.char (by decide) (by decide) (by decide) (.angled h2 .nil))
  rcases hp with ⟨a', t', _, _, rfl⟩ | ⟨rfl, _⟩
  · exact Or.inl ⟨_, t', hA, rfl, rfl⟩
  · refine Or.inr ⟨rfl, ?_⟩
    rintro b u hb he
    have h1 := address_run hb u
    rw [← he] at h1
    have h2 : splitParams ("\"Anonymous\" <sip:anonymous@anonymous.invalid>".toList ++ []) false false false =
      ("\"Anonymous\" <sip:anonymous@anonymous.invalid>".toList, []) := by decide +kernel
    rw [h2] at h1
    cases h1

/-- **C112.** A request still belongs to the same dialog afterwards, if its From has no tag in the address. -/
theorem C112_dialog (hs : Headers) (hi : HInv hs) (vs : List PValue) (r : Headers) (h : enforce hs vs = (r, Option.none))
    (hf : ∀ v more a p, Selects "From".toList hs.inner (v :: more) → v = a ++ p → Params v p → extractTag a = .done Option.none) :
    DialogId.fromRequest r = DialogId.fromRequest hs := by
  have hget : ∀ n : String, (∀ m ∈ removable ++ identityNames, lower n.toList ≠ lower m.toList) → r.get n.toList = hs.get n.toList := by
    intro n hn
    have hn' : ∀ m ∈ hiddenNames vs, lower n.toList ≠ lower m.toList := by
      intro m hm
      apply hn
      unfold hiddenNames at hm
      rw [List.mem_append] at hm ⊢
      rcases hm with hm | hm
      · split at hm
        · exact Or.inl hm
        · cases hm
      · split at hm
        · exact Or.inr hm
        · cases hm
    rw [enforce_spec hs hi] at h
    split at h
    · split at h
      · cases h
      split at h
      · cases h
      cases h
      show first n _ = first n _
      rw [first_masks _ _ _ _ (Ne.symm (hn "Contact" (by decide))), first_masks _ _ _ _ (Ne.symm (hn "From" (by decide))),
        first_without _ _ _ hn']
    · cases h
      show first n _ = first n _
      rw [first_without _ _ _ hn']
  have hc := hget "Call-ID" (by decide)
  have ht := hget "To" (by decide)
  have hfrom : headerTag r "From".toList = headerTag hs "From".toList := by
    rw [enforce_spec hs hi] at h
    split at h
    · split at h
      · cases h
      split at h
      · cases h
      cases h
      unfold headerTag
      have e1 : ∀ l : List Header, (Headers.mk l).get "From".toList = first "From" l := fun _ => rfl
      have e2 : hs.get "From".toList = first "From" hs.inner := rfl
      rw [e1, e2, first_masks _ _ _ _ (by decide)]
      have e3 : first "From" (without (hiddenNames vs) hs.inner ++ masks "From" (first "From" hs.inner)) =
          (first "From" hs.inner).map (fun v => (mask "From" v).value) := by
        unfold first
        rw [List.find?_append]
        have e4 : (without (hiddenNames vs) hs.inner).find? (·.nameEq "From".toList) = Option.none := by
          rename_i hid _ _
          rw [List.find?_eq_none]
          intro x hx hxn
          have := (List.mem_filter.1 hx).2
          rw [Bool.not_eq_true', List.any_eq_false] at this
          apply this "From" _ hxn
          unfold hiddenNames
          rw [if_pos hid]
          simp
        rw [e4]
        cases hs.inner.find? (·.nameEq "From".toList) with
        | none => rfl
        | some x => rfl
      rw [e3]
      cases hv : first "From" hs.inner with
      | none => rfl
      | some v =>
        simp only [Option.map_some]
        obtain ⟨more, hsel⟩ := (get_iff hs "From".toList v).1 (e2.trans hv)
        have hp : Params v (splitParams v false false false).2 := (params_iff _ _).2 rfl
        obtain ⟨a, ea⟩ := params_suffix hp
        rw [tag_params ea hp (hf v more a _ hsel ea hp)]
        have hm := params_mask a (splitParams v false false false).2 (by rw [← ea]; exact hp)
        exact tag_params rfl hm (by decide +kernel)
    · rename_i hid
      cases h
      unfold headerTag
      have e1 : ∀ l : List Header, (Headers.mk l).get "From".toList = first "From" l := fun _ => rfl
      have e2 : hs.get "From".toList = first "From" hs.inner := rfl
      rw [e1, e2, first_without]
      intro m hm
      unfold hiddenNames at hm
      rw [if_neg hid, List.append_nil] at hm
      split at hm
      · revert m; decide
      · cases hm
  unfold DialogId.fromRequest
  rw [hc]
  unfold headerTag at *
  rw [hfrom, ht]

/-! ### Cases -/

/-- A request of a user. -/
def exHeaders : Headers := ⟨[⟨"Via".toList, "SIP/2.0/UDP h".toList⟩, ⟨"From".toList, "\"A; B\" <sip:alice;x=1@example.com>;tag=7".toList⟩,
  ⟨"Call-ID".toList, "c".toList⟩, ⟨"subject".toList, "S".toList⟩, ⟨"P-Asserted-Identity".toList, "<sip:alice@example.com>".toList⟩,
  ⟨"Contact".toList, "<sip:alice@10.0.0.1;ob>;+sip.instance=\"<u>\"".toList⟩, ⟨"To".toList, "<sip:bob@example.com>;tag=8".toList⟩]⟩

/-- The same for another user. -/
def exHeaders' : Headers := ⟨[⟨"Via".toList, "SIP/2.0/UDP h".toList⟩, ⟨"From".toList, "<sip:carol@example.org>;tag=7".toList⟩,
  ⟨"Call-ID".toList, "c".toList⟩, ⟨"Contact".toList, "sip:carol@10.0.0.2;+sip.instance=\"<u>\"".toList⟩,
  ⟨"User-Agent".toList, "x".toList⟩, ⟨"To".toList, "<sip:bob@example.com>;tag=8".toList⟩]⟩

theorem hinv_of {l : List Header} (h1 : l.length ≤ 200)
    (h2 : ∀ x ∈ l, (Header.new x.name x.value).toOption = some x) : HInv ⟨l⟩ := by
  refine ⟨h1, fun x hx => ?_⟩
  have := h2 x hx
  cases he : Header.new x.name x.value with
  | error e => rw [he] at this; cases this
  | ok y =>
    rw [he] at this
    cases this
    exact storedOk_of_new he

example : HInv exHeaders ∧ HInv exHeaders' ∧ (enforce exHeaders [.user]).2 = Option.none ∧ (enforce exHeaders' [.user]).2 = Option.none ∧
    (∃ k, Kept [.user] exHeaders.inner k ∧ Kept [.user] exHeaders'.inner k ∧ k.length = 3) ∧
    (∀ n ∈ ["From", "Contact"], SameParams exHeaders.inner exHeaders'.inner n) := by
  refine ⟨hinv_of (by decide) (by decide +kernel), hinv_of (by decide) (by decide +kernel), by decide +kernel, by decide +kernel, ?_, ?_⟩
  · refine ⟨_, (kept_iff _ _ _).2 rfl, (kept_iff _ _ _).2 (by decide +kernel), by decide +kernel⟩
  · intro n hn
    have h : ∀ (hs : Headers) (n v : Str), hs.get n = some v → ∃ more, Selects n hs.inner (v :: more) := fun hs n v => (get_iff hs n v).1
    simp only [List.mem_cons, List.not_mem_nil, or_false] at hn
    rcases hn with rfl | rfl
    · obtain ⟨m1, h1⟩ := h exHeaders "From".toList "\"A; B\" <sip:alice;x=1@example.com>;tag=7".toList (by decide +kernel)
      obtain ⟨m2, h2⟩ := h exHeaders' "From".toList "<sip:carol@example.org>;tag=7".toList (by decide +kernel)
      exact Or.inr ⟨_, _, _, _, ";tag=7".toList, h1, h2, (params_iff _ _).2 (by decide +kernel), (params_iff _ _).2 (by decide +kernel)⟩
    · obtain ⟨m1, h1⟩ := h exHeaders "Contact".toList "<sip:alice@10.0.0.1;ob>;+sip.instance=\"<u>\"".toList (by decide +kernel)
      obtain ⟨m2, h2⟩ := h exHeaders' "Contact".toList "sip:carol@10.0.0.2;+sip.instance=\"<u>\"".toList (by decide +kernel)
      exact Or.inr ⟨_, _, _, _, ";+sip.instance=\"<u>\"".toList, h1, h2, (params_iff _ _).2 (by decide +kernel),
        (params_iff _ _).2 (by decide +kernel)⟩

/-- The dialog of the case is one, and its From meets the hypothesis. -/
example : (∃ d, DialogId.fromRequest exHeaders = .done (some d)) ∧
    ∀ a, "\"A B\" <sip:alice@example.com>;tag=7".toList = a ++ ";tag=7".toList → extractTag a = .done Option.none := by
  refine ⟨⟨⟨"c".toList, "7".toList, "8".toList⟩, by decide +kernel⟩, ?_⟩
  intro a h
  have : a = "\"A B\" <sip:alice@example.com>".toList := by
    have e : "\"A B\" <sip:alice@example.com>;tag=7".toList = "\"A B\" <sip:alice@example.com>".toList ++ ";tag=7".toList := by decide
    rw [e] at h
    exact (List.append_cancel_right h).symm
  rw [this]
  decide +kernel

/-! ### What can still be seen -/

/-- A semicolon in a display name without quotes: the address stays. -/
theorem C112_display_leaks : ∃ r, enforce ⟨[⟨"From".toList, "Alice; Sales <sip:alice@example.com>;tag=1".toList⟩]⟩ [.id] = (r, Option.none) ∧
    r.get "From".toList = some "\"Anonymous\" <sip:anonymous@anonymous.invalid>; Sales <sip:alice@example.com>;tag=1".toList :=
  ⟨_, rfl, by decide +kernel⟩

/-- Several contacts in one header: all but the first stay. -/
theorem C112_contacts_leak : ∃ r, enforce ⟨[⟨"Contact".toList, "<sip:a@h>;q=1, <sip:alice@example.com>".toList⟩]⟩ [.id] = (r, Option.none) ∧
    r.get "Contact".toList = some "\"Anonymous\" <sip:anonymous@anonymous.invalid>;q=1, <sip:alice@example.com>".toList :=
  ⟨_, rfl, by decide +kernel⟩

/-- An overlong Contact: the call fails with the asserted identity still there, though From is already replaced. -/
theorem C112_half_done (c : Str) (hc : 1024 < utf8Len c) (hc' : utf8Len c ≤ 8192) (h1 : OneLine c) :
    ∃ r, enforce ⟨[⟨"From".toList, "<sip:alice@example.com>".toList⟩, ⟨"Contact".toList, c⟩,
        ⟨"P-Asserted-Identity".toList, "<sip:alice@example.com>".toList⟩]⟩ [.id] = (r, some .inputTooLarge) ∧
      r.get "P-Asserted-Identity".toList = some "<sip:alice@example.com>".toList ∧
      r.get "From".toList = some "\"Anonymous\" <sip:anonymous@anonymous.invalid>".toList := by
  have hi : HInv ⟨[⟨"From".toList, "<sip:alice@example.com>".toList⟩, ⟨"Contact".toList, c⟩,
      ⟨"P-Asserted-Identity".toList, "<sip:alice@example.com>".toList⟩]⟩ := by
    refine ⟨by simp, ?_⟩
    intro x hx
    simp only [List.mem_cons, List.not_mem_nil, or_false] at hx
    rcases hx with rfl | rfl | rfl
    · exact storedOk_of_new (n := "From".toList) (v := "<sip:alice@example.com>".toList) (by decide +kernel)
    · exact ⟨⟨token_contact.1, h1⟩, token_contact.2, hc'⟩
    · exact storedOk_of_new (n := "P-Asserted-Identity".toList) (v := "<sip:alice@example.com>".toList) (by decide +kernel)
  rw [enforce_spec _ hi]
  have e1 : hidesIdentity [.id] = true := by decide
  have e2 : first "From" [⟨"From".toList, "<sip:alice@example.com>".toList⟩, ⟨"Contact".toList, c⟩,
      ⟨"P-Asserted-Identity".toList, "<sip:alice@example.com>".toList⟩] = some "<sip:alice@example.com>".toList := rfl
  have e3 : first "Contact" [⟨"From".toList, "<sip:alice@example.com>".toList⟩, ⟨"Contact".toList, c⟩,
      ⟨"P-Asserted-Identity".toList, "<sip:alice@example.com>".toList⟩] = some c := rfl
  rw [e1, e2, e3]
  rw [if_pos rfl, if_neg (by decide), if_pos (show long (some c) = true from decide_eq_true hc)]
  exact ⟨_, rfl, rfl, rfl⟩

/-- A quoted display name with `;tag=` in it: the request no longer belongs to the dialog it belonged to. -/
theorem C112_dialog_moves : ∃ hs r d d', HInv hs ∧ enforce hs [.user] = (r, Option.none) ∧
    DialogId.fromRequest hs = .done (some d) ∧ DialogId.fromRequest r = .done (some d') ∧ d ≠ d' :=
  ⟨⟨[⟨"From".toList, "\"A;tag=1;\" <sip:a@h>;tag=7".toList⟩, ⟨"Call-ID".toList, "c".toList⟩, ⟨"To".toList, "<sip:b@h>;tag=8".toList⟩]⟩, _,
    ⟨"c".toList, "1".toList, "8".toList⟩, ⟨"c".toList, "7".toList, "8".toList⟩,
    hinv_of (by decide) (by decide +kernel), rfl, by decide +kernel, by decide +kernel, by decide⟩

end Siphon.Priv
