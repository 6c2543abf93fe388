import Verif.Mime.Spec
import Verif.Event.Props
/-!
# C146: media types
-/
namespace Siphon.Mime
open TextSpec HdrSpec Spec
open EventHdr.Spec (Good)

theorem valid_iff (max : Nat) (s : Str) : valid max s = true ↔ Good max s := EventHdr.valid_iff max s

theorem good_lower {max : Nat} {s : Str} (h : Good max s) : Good max (lower s) := by
  obtain ⟨⟨⟨h1, h2⟩, h3, h4⟩, h5⟩ := h
  have ne : ∀ c : Char, c.toLower = '^' ∨ c.toLower = '|' → c = '^' ∨ c = '|' := by
    intro c h
    simp only [char_eq_iff, toLower_toNat] at h ⊢
    have e1 : '^'.toNat = 94 := rfl
    have e2 : '|'.toNat = 124 := rfl
    split at h <;> omega
  refine ⟨⟨⟨by unfold lower; simpa using h1, ?_⟩, ?_, ?_⟩, by rw [utf8Len_lower]; exact h5⟩
  · intro c hc
    unfold lower at hc
    obtain ⟨d, hd, rfl⟩ := List.mem_map.mp hc
    exact Prio.token_lower (h2 d hd)
  · intro hc
    unfold lower at hc
    obtain ⟨d, hd, e⟩ := List.mem_map.mp hc
    rcases ne d (.inl e) with rfl | rfl
    · exact h3 hd
    · exact h4 hd
  · intro hc
    unfold lower at hc
    obtain ⟨d, hd, e⟩ := List.mem_map.mp hc
    rcases ne d (.inr e) with rfl | rfl
    · exact h3 hd
    · exact h4 hd

theorem utf8Len_cons (c : Char) (s : Str) : utf8Len (c :: s) = c.utf8Size + utf8Len s := by
  unfold utf8Len; simp

theorem utf8Len_append (a b : Str) : utf8Len (a ++ b) = utf8Len a + utf8Len b := by simp [utf8Len]

theorem unquote_some : ∀ {q v : Str}, unquote q = some v → Escaped v q
  | [], v, h => by cases h; exact .nil
  | c :: t, v, h => by
    rw [unquote.eq_def] at h
    simp only at h
    split at h
    · rename_i hc
      subst hc
      match t, h with
      | [], h => cases h
      | d :: t', h =>
        simp only [Option.map_eq_some_iff] at h
        obtain ⟨w, h1, rfl⟩ := h
        exact .esc (unquote_some h1)
    · split at h
      · cases h
      · rename_i h1 h2
        simp only [Option.map_eq_some_iff] at h
        obtain ⟨w, h3, rfl⟩ := h
        exact .plain h2 h1 (unquote_some h3)

theorem unquote_of {v q : Str} (h : Escaped v q) : unquote q = some v := by
  induction h with
  | nil => rfl
  | plain h1 h2 _ ih => rw [unquote.eq_def]; simp [h1, h2, ih]
  | esc _ ih => rw [unquote.eq_def]; simp [ih]

theorem quoted_form {t : Str} (h : t.head? = some '"' ∧ t.getLast? = some '"' ∧ t.length ≥ 2) :
    t = '"' :: (t.drop 1).dropLast ++ ['"'] := by
  obtain ⟨h1, h2, h3⟩ := h
  cases t with
  | nil => cases h1
  | cons c t =>
    cases h1
    cases ht : t with
    | nil => rw [ht] at h3; simp at h3
    | cons d t' =>
      have e : (d :: t').getLast? = some '"' := by
        rw [ht, List.getLast?_cons_cons] at h2; exact h2
      obtain ⟨a, ha⟩ := List.getLast?_eq_some_iff.mp e
      rw [ha]
      simp

/-- **C146**: a value is accepted, and stands for a text, exactly if it is a token or a quoted text, not too long and without control
characters. -/
theorem C146_value (t v : Str) : normalize t = some v ↔ Denotes t v := by
  have hM : MAX_PARAM_VALUE_LENGTH = 256 := rfl
  unfold normalize
  constructor
  · intro h
    split at h
    · cases h
    · split at h
      · cases h
      · rename_i he hl
        split at h
        · cases h
        · rename_i hc
          have hc' : ∀ c ∈ t, isAsciiControl c = false := by
            intro c hm
            cases hx : isAsciiControl c with
            | false => rfl
            | true => exact absurd (List.any_eq_true.mpr ⟨c, hm, hx⟩) hc
          split at h
          · rename_i hq
            have e := quoted_form hq
            generalize (t.drop 1).dropLast = q at e h
            subst e
            have hlen : utf8Len ('"' :: q ++ ['"']) = utf8Len q + 2 := by
              rw [List.cons_append, utf8Len_cons, utf8Len_append, show utf8Len ['"'] = 1 from rfl, show ('"' : Char).utf8Size = 1 from rfl]
              omega
            exact .quoted (unquote_some h) (by omega) (fun c hm => hc' c (by simp [hm]))
          · split at h
            · rename_i ht
              cases h
              refine .token ((valid_iff _ _).mp ?_)
              unfold isToken at ht
              simp only [Bool.and_eq_true] at ht
              unfold valid
              have : ¬ utf8Len t > 256 := by omega
              rw [ht.1, ht.2]
              simpa using this
            · cases h
  · intro h
    cases h with
    | token hg =>
      have hv := (valid_iff _ _).mpr hg
      unfold valid at hv
      simp only [Bool.and_eq_true, Bool.not_eq_true', decide_eq_false_iff_not] at hv
      obtain ⟨⟨h1, h2⟩, h3⟩ := hv
      obtain ⟨⟨⟨_, htok⟩, _⟩, _⟩ := hg
      rw [if_neg (by simp [h1]), if_neg (by omega)]
      have hc : t.any isAsciiControl = false := List.any_eq_false.mpr (fun c hm => by simp [tokenChar_not_control c (htok c hm)])
      rw [if_neg (by rw [hc]; decide), if_neg, if_pos]
      · unfold isToken; simp [h1, h3]
      · rintro ⟨hh, _⟩
        have := htok _ (List.mem_of_mem_head? hh)
        exact absurd ((isHeaderNameChar_iff _).mpr this) (by decide)
    | @quoted _ q he hl hc =>
      have hlen : utf8Len ('"' :: q ++ ['"']) = utf8Len q + 2 := by
        rw [List.cons_append, utf8Len_cons, utf8Len_append, show utf8Len ['"'] = 1 from rfl, show ('"' : Char).utf8Size = 1 from rfl]
        omega
      rw [if_neg (by simp), if_neg (by omega)]
      have hc' : ('"' :: q ++ ['"']).any isAsciiControl = false := by
        apply List.any_eq_false.mpr
        intro c hm
        simp only [List.cons_append, List.mem_cons, List.mem_append, List.not_mem_nil, or_false] at hm
        rcases hm with rfl | hm | rfl
        · decide
        · simp [hc c hm]
        · decide
      rw [if_neg (by rw [hc']; decide), if_pos ⟨rfl, List.getLast?_concat, by simp⟩]
      have e : (('"' :: q ++ ['"']).drop 1).dropLast = q := by simp
      rw [e]
      exact unquote_of he

example : normalize "\"a\\\"b \"".toList = some "a\"b ".toList := by decide +kernel

/-- **C146**: which types can be made. -/
theorem C146_new (a b : Str) (m : Mime) : Mime.new a b = some m ↔ Good 64 a ∧ Good 64 b ∧ m = ⟨lower a, lower b, []⟩ := by
  unfold Mime.new
  rw [← valid_iff, ← valid_iff, show MAX_TYPE_LENGTH = 64 from rfl, show MAX_SUBTYPE_LENGTH = 64 from rfl]
  cases valid 64 a <;> cases valid 64 b <;> simp [eq_comm]

theorem addParam_iff (m m' : BMap Str) (n v : Str) : addParam m n v = some m' ↔
    Good 64 n ∧ m.length < 20 ∧ m.has (lower n) = false ∧ ∃ w, Denotes v w ∧ m' = m.insert (lower n) w := by
  have hM : MAX_PARAMS = 20 := rfl
  unfold addParam
  rw [← valid_iff, show MAX_PARAM_NAME_LENGTH = 64 from rfl]
  simp only [← C146_value]
  by_cases h3 : m.length ≥ MAX_PARAMS
  · have : ¬ m.length < 20 := by omega
    cases valid 64 n <;> simp [h3, this]
  · have : m.length < 20 := by omega
    cases valid 64 n <;> cases m.has (lower n) <;> simp [h3, this, Option.map_eq_some_iff, eq_comm (b := m')]

/-- **C146**: a parameter is taken exactly if its name is a token, its value stands for a text, there is room, and there is none of that
name; the text is then found under the name, in any case, and the rest is as before. -/
theorem C146_add (m : Mime) (n v : Str) :
    ((∃ m', m.add n v = some m') ↔ Good 64 n ∧ m.params.length < 20 ∧ m.param n = none ∧ ∃ w, Denotes v w) ∧
    ∀ m', m.add n v = some m' → m'.top = m.top ∧ m'.sub = m.sub ∧ ∃ w, Denotes v w ∧
      ∀ k, (SameName k n → m'.param k = some w) ∧ (¬ SameName k n → m'.param k = m.param k) := by
  have hk : m.params.has (lower n) = false ↔ m.param n = none := by
    unfold Mime.param
    rw [← Bool.not_eq_true, Via.bhas_iff]
    cases m.params.get (lower n) <;> simp
  constructor
  · simp only [Mime.add, Option.map_eq_some_iff, addParam_iff, hk]
    constructor
    · rintro ⟨_, _, ⟨h1, h2, h3, w, h4, _⟩, _⟩; exact ⟨h1, h2, h3, w, h4⟩
    · rintro ⟨h1, h2, h3, w, h4⟩; exact ⟨_, _, ⟨h1, h2, h3, w, h4, rfl⟩, rfl⟩
  · intro m' h
    simp only [Mime.add, Option.map_eq_some_iff, addParam_iff] at h
    obtain ⟨_, ⟨_, _, _, w, h4, rfl⟩, rfl⟩ := h
    refine ⟨rfl, rfl, w, h4, fun k => ?_⟩
    unfold Mime.param
    rw [Via.bget_insert, Via.sameName_lower]
    exact ⟨fun h => if_pos h, fun h => if_neg h⟩

theorem escaped_control {v q : Str} (h : Escaped v q) (hc : ∀ c ∈ q, isAsciiControl c = false) : ∀ c ∈ v, isAsciiControl c = false := by
  induction h with
  | nil => simp
  | plain _ _ _ ih =>
    intro c hm
    rcases List.mem_cons.mp hm with rfl | hm
    · exact hc _ (by simp)
    · exact ih (fun c hc' => hc c (by simp [hc'])) c hm
  | esc _ ih =>
    intro c hm
    rcases List.mem_cons.mp hm with rfl | hm
    · exact hc _ (by simp)
    · exact ih (fun c hc' => hc c (by simp [hc'])) c hm

theorem denotes_control {t v : Str} (h : Denotes t v) : ∀ c ∈ v, isAsciiControl c = false := by
  cases h with
  | token hg => exact fun c hm => tokenChar_not_control c (hg.1.1.2 c hm)
  | quoted he _ hc => exact escaped_control he hc

/-- **C146**: every media type the API makes is proper. -/
theorem C146_made {m : Mime} (h : Made m) : Proper m := by
  induction h with
  | new h =>
    obtain ⟨h1, h2, rfl⟩ := (C146_new _ _ _).mp h
    exact ⟨⟨good_lower h1, lower_lower _⟩, ⟨good_lower h2, lower_lower _⟩, .nil, by simp, by simp, by simp⟩
  | @add m n v m' _ ha ih =>
    simp only [Mime.add, Option.map_eq_some_iff, addParam_iff] at ha
    obtain ⟨_, ⟨h1, h2, h3, w, h4, rfl⟩, rfl⟩ := ha
    have hs := (UriText.sorted_iff _).mpr ih.order
    refine ⟨ih.top, ih.sub, (UriText.sorted_iff _).mp (UriP.sorted_insert _ _ hs), ?_, ?_, ?_⟩
    · simp only [Via.blength_insert m.params _ w h3]; omega
    · intro e he
      rcases UriP.mem_insert he with rfl | he
      · exact ⟨good_lower h1, lower_lower _⟩
      · exact ih.names e he
    · intro e he
      rcases UriP.mem_insert he with rfl | he
      · exact denotes_control h4
      · exact ih.values e he

theorem escaped_escape : ∀ v : Str, Escaped v (escape v)
  | [] => .nil
  | c :: t => by
    rw [escape]
    split
    · exact .esc (escaped_escape t)
    · rename_i h
      exact .plain (fun e => h (.inr e)) (fun e => h (.inl e)) (escaped_escape t)

theorem mem_escape {c : Char} : ∀ {v : Str}, c ∈ escape v → c ∈ v ∨ c = '\\'
  | [], h => by cases h
  | d :: t, h => by
    rw [escape] at h
    split at h
    · rcases List.mem_cons.mp h with rfl | h
      · exact .inr rfl
      · rcases List.mem_cons.mp h with rfl | h
        · exact .inl (by simp)
        · rcases mem_escape h with h | h
          · exact .inl (by simp [h])
          · exact .inr h
    · rcases List.mem_cons.mp h with rfl | h
      · exact .inl (by simp)
      · rcases mem_escape h with h | h
        · exact .inl (by simp [h])
        · exact .inr h

theorem utf8Len_escape : ∀ v : Str, utf8Len (escape v) = utf8Len v + (v.filter (fun c => c = '"' ∨ c = '\\')).length
  | [] => rfl
  | c :: t => by
    rw [escape]
    have ih := utf8Len_escape t
    by_cases h : c = '\\' ∨ c = '"'
    · rw [if_pos h, List.filter_cons_of_pos (by simpa using h.symm), utf8Len_cons, utf8Len_cons, utf8Len_cons, List.length_cons, ih,
        show ('\\' : Char).utf8Size = 1 from rfl]
      omega
    · rw [if_neg h, List.filter_cons_of_neg (by simpa using (fun e => h (Or.symm e) : ¬ (c = '"' ∨ c = '\\'))), utf8Len_cons, utf8Len_cons, ih]
      omega

theorem denotes_text {v : Str} (hf : Fits v) (hc : ∀ c ∈ v, isAsciiControl c = false) : Denotes (valueText v) v := by
  unfold valueText
  split
  · rename_i ht
    refine .token ((valid_iff _ _).mp ?_)
    unfold isToken at ht
    simp only [Bool.and_eq_true] at ht
    have := hf.2
    have h2 : ¬ utf8Len v > 256 := by omega
    unfold valid
    rw [ht.1, ht.2]
    simpa using h2
  · refine .quoted (escaped_escape v) (by rw [utf8Len_escape]; exact hf.2) ?_
    intro c hm
    rcases mem_escape hm with h | rfl
    · exact hc c h
    · decide

theorem trimmed_append {a b : Str} (ha : a ≠ []) (hb : b ≠ []) (h1 : Trimmed a) (h2 : Trimmed b) : Trimmed (a ++ b) := by
  constructor
  · intro c hc
    cases a with
    | nil => exact absurd rfl ha
    | cons x xs => exact h1.1 c hc
  · intro c hc
    rw [List.getLast?_append] at hc
    cases hl : b.getLast? with
    | none => exact absurd (List.getLast?_eq_none_iff.mp hl) hb
    | some d =>
      rw [hl] at hc
      simp only [Option.some_or, Option.some.injEq] at hc
      exact h2.2 c (hc ▸ hl)

theorem trimmed_value (v : Str) : Trimmed (valueText v) ∧ valueText v ≠ [] := by
  unfold valueText
  split
  · rename_i ht
    unfold isToken at ht
    simp only [Bool.and_eq_true, Bool.not_eq_true', List.isEmpty_eq_false_iff, List.all_eq_true] at ht
    exact ⟨trimmed_of_all _ (fun c hm => Prio.tokenChar_not_ws ((Prio.etagChar_iff c).mp (ht.2 c hm)).1), ht.1⟩
  · refine ⟨⟨?_, ?_⟩, by simp⟩
    · intro c hc; cases hc; decide
    · intro c hc
      rw [show '"' :: (escape v ++ ['"']) = ('"' :: escape v) ++ ['"'] from rfl, List.getLast?_concat] at hc
      cases hc; decide

/-- One parameter as it is written. -/
def piece (e : Str × Str) : Str := e.1 ++ '=' :: valueText e.2

theorem token_ne {n : Str} {max : Nat} (h : Good max n) {c : Char} (hc : isHeaderNameChar c = false) : c ∉ n := by
  intro hm
  rw [(isHeaderNameChar_iff c).mpr (h.1.1.2 c hm)] at hc
  cases hc

theorem trimmed_good {n : Str} {max : Nat} (h : Good max n) : Trimmed n :=
  trimmed_of_all _ (fun c hm => Prio.tokenChar_not_ws (h.1.1.2 c hm))

theorem insert_last : ∀ (m : BMap Str) (k v : Str), UriP.Sorted (m ++ [(k, v)]) → m.insert k v = m ++ [(k, v)] ∧ m.has k = false
  | [], k, v, _ => ⟨rfl, rfl⟩
  | (k', v') :: t, k, v, h => by
    rw [List.cons_append] at h
    obtain ⟨h1, h2⟩ := List.pairwise_cons.mp h
    have hlt : strLt k' k = true := h1 (k, v) (by simp)
    have hne : k ≠ k' := by
      rintro rfl
      rw [UriP.strLt_irrefl] at hlt; cases hlt
    have hnl : strLt k k' = false := by
      cases hx : strLt k k' with
      | false => rfl
      | true =>
        have := UriP.strLt_trans _ _ _ hx hlt
        rw [UriP.strLt_irrefl] at this; cases this
    obtain ⟨i1, i2⟩ := insert_last t k v h2
    constructor
    · rw [BMap.insert, if_neg hne, hnl]
      simp [i1]
    · unfold BMap.has at i2 ⊢
      rw [List.any_cons, i2]
      simp [Ne.symm hne]

theorem readParams_pieces : ∀ (l m : BMap Str), UriP.Sorted (m ++ l) → m.length + l.length ≤ 20 →
    (∀ e ∈ l, (Good 64 e.1 ∧ lower e.1 = e.1) ∧ Fits e.2 ∧ ∀ c ∈ e.2, isAsciiControl c = false) →
    readParams (l.map piece) m = some (m ++ l)
  | [], m, _, _, _ => by simp [readParams]
  | e :: l, m, hs, hl, hg => by
    obtain ⟨n, v⟩ := e
    obtain ⟨⟨g1, g2⟩, g3, g4⟩ := hg (n, v) (by simp)
    have hne : n ≠ [] := g1.1.1.1
    obtain ⟨tv, nv⟩ := trimmed_value v
    have hp : piece (n, v) = (n ++ ['=']) ++ valueText v := by simp [piece]
    have tp : trim (piece (n, v)) = piece (n, v) := by
      refine trim_of_trimmed _ ?_
      rw [hp]
      refine trimmed_append (by simp) nv (trimmed_append hne (by simp) (trimmed_good g1) ?_) tv
      exact trimmed_of_all _ (by simp; decide)
    have hsplit : splitOnce '=' (piece (n, v)) = some (n, valueText v) :=
      (Auth.splitOnce_some_iff _ _ _ _).mpr ⟨rfl, token_ne g1 (by decide)⟩
    have hs' : UriP.Sorted (m ++ [(n, v)]) := by
      unfold UriP.Sorted at hs ⊢
      rw [show m ++ (n, v) :: l = (m ++ [(n, v)]) ++ l by simp] at hs
      exact (List.pairwise_append.mp hs).1
    obtain ⟨i1, i2⟩ := insert_last m n v hs'
    simp only [List.length_cons] at hl
    have ha : addParam m n (valueText v) = some (m ++ [(n, v)]) :=
      (addParam_iff _ _ _ _).mpr ⟨g1, by omega, by rw [g2]; exact i2, v, denotes_text g3 g4, by rw [g2, i1]⟩
    rw [List.map_cons, readParams, tp, if_neg (by rw [hp]; simp), hsplit]
    simp only
    rw [trim_of_trimmed _ (trimmed_good g1), trim_of_trimmed _ tv, ha]
    simp only
    rw [readParams_pieces l (m ++ [(n, v)]) (by simpa using hs) (by simp; omega) (fun e he => hg e (by simp [he]))]
    simp

theorem text_join (b : Str) (l : BMap Str) : b ++ paramsText l = join ';' (b :: l.map piece) := by
  induction l generalizing b with
  | nil => simp [paramsText, join]
  | cons e l ih =>
    obtain ⟨n, v⟩ := e
    rw [List.map_cons, join, ← ih]
    · simp [paramsText, piece]
    · simp

/-- **C146**, in part: a media type that was made is read back from its text, if no value has a semicolon and none is too long when it is
written.  Missing: the values with a semicolon (see `C146_semicolon`) or with 255 bytes and more. -/
theorem C146_roundtrip_partial {m : Mime} (h : Made m) (hf : ∀ e ∈ m.params, Fits e.2) : parse m.text = some m := by
  have hp := C146_made h
  have hbase : ∀ c, isHeaderNameChar c = false → c ≠ '/' → c ∉ m.top ++ '/' :: m.sub := by
    intro c h1 h2 hm
    simp only [List.mem_append, List.mem_cons] at hm
    rcases hm with hm | hm | hm
    · exact token_ne hp.top.1 h1 hm
    · exact h2 hm
    · exact token_ne hp.sub.1 h1 hm
  have hsplit : splitChar ';' m.text = (m.top ++ '/' :: m.sub) :: m.params.map piece := by
    refine ((pieces_iff _ _ _).mp ⟨by simp, text_join _ _, ?_⟩).symm
    intro p hm
    rcases List.mem_cons.mp hm with rfl | hm
    · exact hbase ';' (by decide) (by decide)
    · obtain ⟨e, he, rfl⟩ := List.mem_map.mp hm
      unfold piece
      intro hc
      simp only [List.mem_append, List.mem_cons] at hc
      rcases hc with hc | hc | hc
      · exact token_ne (hp.names e he).1 (by decide) hc
      · exact absurd hc (by decide)
      · unfold valueText at hc
        split at hc
        · exact (hf e he).1 hc
        · simp only [List.mem_cons, List.mem_append, List.not_mem_nil, or_false] at hc
          rcases hc with hc | hc | hc
          · exact absurd hc (by decide)
          · rcases mem_escape hc with hc | hc
            · exact (hf e he).1 hc
            · exact absurd hc (by decide)
          · exact absurd hc (by decide)
  have htrim : trim (m.top ++ '/' :: m.sub) = m.top ++ '/' :: m.sub := by
    refine trim_of_trimmed _ ?_
    rw [show m.top ++ '/' :: m.sub = (m.top ++ ['/']) ++ m.sub by simp]
    exact trimmed_append (by simp) hp.sub.1.1.1.1
      (trimmed_append hp.top.1.1.1.1 (by simp) (trimmed_good hp.top.1) (trimmed_of_all _ (by simp; decide))) (trimmed_good hp.sub.1)
  have hslash : splitChar '/' (m.top ++ '/' :: m.sub) = [m.top, m.sub] := by
    refine ((pieces_iff '/' (m.top ++ '/' :: m.sub) [m.top, m.sub]).mp ⟨by simp, rfl, ?_⟩).symm
    intro p hm
    simp only [List.mem_cons, List.not_mem_nil, or_false] at hm
    rcases hm with rfl | rfl
    · exact token_ne hp.top.1 (by decide)
    · exact token_ne hp.sub.1 (by decide)
  unfold parse
  rw [hsplit]
  simp only
  rw [htrim, hslash]
  simp only
  rw [trim_of_trimmed _ (trimmed_good hp.top.1), trim_of_trimmed _ (trimmed_good hp.sub.1),
    (C146_new _ _ _).mpr ⟨hp.top.1, hp.sub.1, rfl⟩]
  simp only
  rw [readParams_pieces m.params [] ((UriText.sorted_iff _).mpr hp.order) (by simpa using hp.count)
    (fun e he => ⟨hp.names e he, hf e he, hp.values e he⟩)]
  simp only [List.nil_append, Option.map_some, hp.top.2, hp.sub.2]

example : ∃ m m' : Mime, Mime.new "Multipart".toList "mixed".toList = some m ∧ m.add "Boundary".toList "\"a b\"".toList = some m' ∧
    m'.text = "multipart/mixed;boundary=\"a b\"".toList := ⟨_, _, rfl, rfl, by decide +kernel⟩

theorem readParams_iff (ps : List Str) (m m' : Mime) :
    (readParams ps m.params).map (fun q => ({ m with params := q } : Mime)) = some m' ↔ ∃ xs, Items ps xs ∧ Adds m xs m' := by
  induction ps generalizing m with
  | nil =>
    simp only [readParams, Option.map_some, Option.some.injEq]
    constructor
    · rintro rfl; exact ⟨[], .nil, .nil⟩
    · rintro ⟨xs, h1, h2⟩; cases h1; cases h2; rfl
  | cons p ps ih =>
    rw [readParams]
    by_cases hp : trim p = []
    · rw [if_pos (by simp [hp]), ih]
      constructor
      · rintro ⟨xs, h1, h2⟩; exact ⟨xs, .blank ((strips_trim _ _).mpr hp.symm) h1, h2⟩
      · rintro ⟨xs, h1, h2⟩
        cases h1 with
        | blank _ h1 => exact ⟨xs, h1, h2⟩
        | item hs _ _ _ _ => have := (strips_trim _ _).mp hs; rw [hp] at this; simp at this
    · rw [if_neg (by simpa using hp)]
      cases hs : splitOnce '=' (trim p) with
      | none =>
        refine ⟨fun h => (by cases h), ?_⟩
        rintro ⟨xs, h1, h2⟩
        cases h1 with
        | blank hb _ => exact absurd ((strips_trim _ _).mp hb).symm hp
        | item ht hn _ _ _ =>
          rw [← (strips_trim _ _).mp ht, (Auth.splitOnce_some_iff _ _ _ _).mpr ⟨rfl, hn⟩] at hs
          cases hs
      | some y =>
        obtain ⟨n, v⟩ := y
        obtain ⟨he, hn⟩ := (Auth.splitOnce_some_iff _ _ _ _).mp hs
        simp only
        constructor
        · intro h
          cases ha : addParam m.params (trim n) (trim v) with
          | none => rw [ha] at h; cases h
          | some q =>
            rw [ha] at h
            obtain ⟨xs, h1, h2⟩ := (ih { m with params := q }).mp h
            refine ⟨(trim n, trim v) :: xs, .item (he ▸ (strips_trim _ _).mpr rfl) hn ((strips_trim _ _).mpr rfl) ((strips_trim _ _).mpr rfl) h1, .cons ?_ h2⟩
            simp [Mime.add, ha]
        · rintro ⟨xs, h1, h2⟩
          cases h1 with
          | blank hb _ => exact absurd ((strips_trim _ _).mp hb).symm hp
          | @item _ n' v' n1 v1 _ xs' ht hn' h3 h4 hrest =>
            rw [← (strips_trim _ _).mp ht, (Auth.splitOnce_some_iff _ _ _ _).mpr ⟨rfl, hn'⟩] at hs
            cases hs
            rw [← (strips_trim _ _).mp h3, ← (strips_trim _ _).mp h4]
            cases h2 with
            | @cons _ _ _ m1 _ _ hadd h2 =>
              unfold Mime.add at hadd
              cases ha : addParam m.params n1 v1 with
              | none => rw [ha] at hadd; cases hadd
              | some q =>
                rw [ha] at hadd
                cases hadd
                exact (ih { m with params := q }).mpr ⟨xs', hrest, h2⟩

/-- **C146**: to read a text is to make the type that its first part names and to add the parameters that the other parts name, in turn. -/
theorem C146_parse (s : Str) (m : Mime) : parse s = some m ↔ ∃ p ps t a b a' b' xs m0, Pieces ';' s (p :: ps) ∧ Strips isWs p t ∧
    Pieces '/' t [a, b] ∧ Strips isWs a a' ∧ Strips isWs b b' ∧ Items ps xs ∧ Mime.new a' b' = some m0 ∧ Adds m0 xs m := by
  unfold parse
  constructor
  · intro h
    split at h
    · cases h
    · rename_i p ps hp
      split at h
      · rename_i a b hab
        cases hm : Mime.new (trim a) (trim b) with
        | none => rw [hm] at h; cases h
        | some m0 =>
          rw [hm] at h
          obtain ⟨xs, h1, h2⟩ := (readParams_iff _ _ _).mp h
          exact ⟨p, ps, _, a, b, _, _, xs, m0, (pieces_iff _ _ _).mpr hp.symm, (strips_trim _ _).mpr rfl, (pieces_iff _ _ _).mpr hab.symm,
            (strips_trim _ _).mpr rfl, (strips_trim _ _).mpr rfl, h1, hm, h2⟩
      · cases h
  · rintro ⟨p, ps, t, a, b, a', b', xs, m0, h1, h2, h3, h4, h5, h6, h7, h8⟩
    rw [← (pieces_iff _ _ _).mp h1]
    simp only
    rw [← (strips_trim _ _).mp h2, ← (pieces_iff _ _ _).mp h3]
    simp only
    rw [← (strips_trim _ _).mp h4, ← (strips_trim _ _).mp h5, h7]
    exact (readParams_iff _ _ _).mpr ⟨xs, h6, h8⟩

example : parse " Text/Plain ; Charset = \"u\" ;;".toList = some ⟨"text".toList, "plain".toList, [("charset".toList, "u".toList)]⟩ := by
  decide +kernel

/-- **C146** fails: a value with a semicolon is accepted and written in quotes, but the text is then cut at the semicolon and refused. -/
theorem C146_semicolon : ∃ m, Made m ∧ parse m.text = none := by
  have h1 : Mime.new "multipart".toList "mixed".toList = some ⟨"multipart".toList, "mixed".toList, []⟩ := by decide +kernel
  have h2 : Mime.add ⟨"multipart".toList, "mixed".toList, []⟩ "boundary".toList "\"a;b\"".toList =
      some ⟨"multipart".toList, "mixed".toList, [("boundary".toList, "a;b".toList)]⟩ := by decide +kernel
  exact ⟨_, .add (.new h1) h2, by decide +kernel⟩

end Siphon.Mime
