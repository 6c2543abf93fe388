import Verif.Auth.Lemmas
/-! Written parameter lists are read back: lemmas used by the client/server round trips. -/
set_option linter.unusedSimpArgs false
namespace Siphon.Auth
open Spec HdrSpec

/-- one parameter as it is written -/
structure KV where
  name : Str
  value : Str
  quoted : Bool

def KV.text (k : KV) : Str := k.name ++ '=' :: (if k.quoted then '"' :: k.value ++ ['"'] else k.value)

def spaced : List KV → List Str
  | [] => []
  | k :: r => k.text :: r.map (fun k => ' ' :: k.text)

def isLowerToken (c : Char) : Bool := 97 ≤ c.toNat && c.toNat ≤ 122

/-- parameters that survive being written and read -/
structure GoodKV (k : KV) : Prop where
  name : k.name ≠ [] ∧ (∀ c ∈ k.name, isLowerToken c = true) ∧ k.name.length ≤ 64
  value : ∀ c ∈ k.value, c ≠ '"' ∧ c ≠ '\\' ∧ isControl c = false
  bare : k.quoted = false → k.value ≠ [] ∧ ∀ c ∈ k.value, isTokenChar c = true

theorem isTokenChar_facts {c : Char} (h : isTokenChar c = true) :
    c ≠ '"' ∧ c ≠ '\\' ∧ c ≠ ',' ∧ c ≠ '=' ∧ c ≠ ' ' ∧ isWs c = false ∧ isControl c = false := by
  simp only [isTokenChar, Bool.or_eq_true, isAlnum_iff, decide_eq_true_eq, List.mem_cons, List.not_mem_nil,
    or_false, char_eq_iff] at h
  simp only [ne_eq, char_eq_iff, isWs, isControl, Bool.or_eq_false_iff, Bool.and_eq_false_iff,
    decide_eq_false_iff_not, beq_eq_false_iff_ne, show '"'.toNat = 34 from rfl, show '\\'.toNat = 92 from rfl,
    show ','.toNat = 44 from rfl, show '='.toNat = 61 from rfl, show ' '.toNat = 32 from rfl]
  simp only [show '!'.toNat = 33 from rfl, show '#'.toNat = 35 from rfl, show '$'.toNat = 36 from rfl,
    show '%'.toNat = 37 from rfl, show '&'.toNat = 38 from rfl, show '\''.toNat = 39 from rfl,
    show '*'.toNat = 42 from rfl, show '+'.toNat = 43 from rfl, show '-'.toNat = 45 from rfl,
    show '.'.toNat = 46 from rfl, show '^'.toNat = 94 from rfl, show '_'.toNat = 95 from rfl,
    show '`'.toNat = 96 from rfl, show '|'.toNat = 124 from rfl, show '~'.toNat = 126 from rfl] at h
  omega

theorem isLowerToken_facts {c : Char} (h : isLowerToken c = true) :
    isTokenChar c = true ∧ c.toLower = c ∧ c ≠ 'D' ∧ c.utf8Size = 1 := by
  simp only [isLowerToken, Bool.and_eq_true, decide_eq_true_eq] at h
  refine ⟨?_, ?_, ?_, ?_⟩
  · simp only [isTokenChar, Bool.or_eq_true, isAlnum_iff]; left; omega
  · rw [char_eq_iff, toLower_toNat]; split <;> omega
  · rw [ne_eq, char_eq_iff, show 'D'.toNat = 68 from rfl]; omega
  · rw [utf8Size_toNat]; split <;> omega

/-! ## Elements -/

theorem foldl_outside {a : Str} (h : ∀ c ∈ a, c ≠ '"') : a.foldl Q.next .outside = .outside := by
  induction a with
  | nil => rfl
  | cons c a ih =>
    rw [List.foldl_cons]
    have : Q.next .outside c = .outside := by simp [Q.next, h c (by simp)]
    rw [this]; exact ih (fun c hc => h c (by simp [hc]))

theorem foldl_inside {a : Str} (h : ∀ c ∈ a, c ≠ '"' ∧ c ≠ '\\') : a.foldl Q.next .inside = .inside := by
  induction a with
  | nil => rfl
  | cons c a ih =>
    rw [List.foldl_cons]
    have : Q.next .inside c = .inside := by simp [Q.next, h c (by simp)]
    rw [this]; exact ih (fun c hc => h c (by simp [hc]))

theorem NoSep_nocomma {q : Q} {a : Str} (h : ',' ∉ a) : NoSep q a := by
  intro x y hxy; exact absurd (by rw [hxy]; simp) h

theorem NoSep_inside {a : Str} (h : ∀ c ∈ a, c ≠ '"' ∧ c ≠ '\\') : NoSep .inside a := by
  intro x y hxy
  rw [foldl_inside (fun c hc => h c (by rw [hxy]; simp [hc]))]
  simp

theorem NoSep_append {q : Q} {a b : Str} (ha : NoSep q a) (hb : NoSep (a.foldl Q.next q) b) :
    NoSep q (a ++ b) := by
  induction a generalizing q with
  | nil => simpa using hb
  | cons c a ih =>
    obtain ⟨h1, h2⟩ := NoSep_cons ha
    rw [List.cons_append]
    exact NoSep_cons' h1 (ih h2 (by simpa using hb))

theorem name_facts {k : KV} (h : GoodKV k) :
    (∀ c ∈ k.name, c ≠ '"') ∧ ',' ∉ k.name ∧ '=' ∉ k.name ∧ (∀ c ∈ k.name, isWs c = false) ∧
    lower k.name = k.name ∧ validToken MAX_PARAM_NAME_LENGTH k.name = true := by
  have hc : ∀ c ∈ k.name, isTokenChar c = true := fun c hc => (isLowerToken_facts (h.name.2.1 c hc)).1
  have hf := fun c hm => isTokenChar_facts (hc c hm)
  refine ⟨fun c hm => (hf c hm).1, fun hm => (hf _ hm).2.2.1 rfl, fun hm => (hf _ hm).2.2.2.1 rfl,
    fun c hm => (hf c hm).2.2.2.2.2.1, ?_, ?_⟩
  · unfold lower
    conv => rhs; rw [← List.map_id k.name]
    apply List.map_congr_left
    intro c hm
    simp [(isLowerToken_facts (h.name.2.1 c hm)).2.1]
  · unfold validToken
    have hlen : utf8Len k.name = k.name.length := by
      unfold utf8Len
      have gen : ∀ l : Str, (∀ c ∈ l, isLowerToken c = true) → (l.map Char.utf8Size).sum = l.length := by
        intro l
        induction l with
        | nil => intro _; rfl
        | cons c l ih =>
          intro hl
          rw [List.map_cons, List.sum_cons, ih (fun c hc => hl c (by simp [hc])),
            (isLowerToken_facts (hl c (by simp))).2.2.2, List.length_cons]
          omega
      first | exact gen _ h.name.2.1 | (simp only [List.sum_eq_foldr] at *; exact gen _ h.name.2.1)
    simp only [Bool.and_eq_true, Bool.not_eq_true', List.isEmpty_eq_false_iff, decide_eq_false_iff_not,
      List.any_eq_false, List.all_eq_true, hlen, MAX_PARAM_NAME_LENGTH]
    have := h.name.2.2
    refine ⟨⟨⟨h.name.1, by omega⟩, ?_⟩, hc⟩
    intro c hm
    simp [(hf c hm).2.2.2.2.2.2]

theorem element_text {k : KV} (h : GoodKV k) : Element k.text ∧ Element (' ' :: k.text) := by
  obtain ⟨n1, n2, _⟩ := name_facts h
  have key : ∀ pre : Str, (∀ c ∈ pre, c ≠ '"' ∧ c ≠ ',') → Element (pre ++ k.text) := by
    intro pre hpre
    have hq : ∀ c ∈ pre ++ k.name ++ ['='], c ≠ '"' := by
      intro c hc
      simp only [List.mem_append, List.mem_singleton] at hc
      rcases hc with (hc | hc) | rfl
      · exact (hpre c hc).1
      · exact n1 c hc
      · decide
    have hcm : ',' ∉ pre ++ k.name ++ ['='] := by
      simp only [List.mem_append, List.mem_singleton, not_or]
      exact ⟨⟨fun hm => (hpre _ hm).2 rfl, n2⟩, by decide⟩
    rw [element_iff]
    unfold KV.text quoteState
    cases hk : k.quoted with
    | true =>
      simp only [if_true]
      have e : pre ++ (k.name ++ '=' :: ('"' :: k.value ++ ['"'])) =
          (pre ++ k.name ++ ['=']) ++ (['"'] ++ (k.value ++ ['"'])) := by simp
      have hv : ∀ c ∈ k.value, c ≠ '"' ∧ c ≠ '\\' := fun c hc => ⟨(h.value c hc).1, (h.value c hc).2.1⟩
      rw [e]
      constructor
      · rw [List.foldl_append, foldl_outside hq, List.foldl_append, List.foldl_append]
        rw [show List.foldl Q.next .outside ['"'] = .inside from rfl, foldl_inside hv]
        rfl
      · apply NoSep_append (NoSep_nocomma hcm)
        rw [foldl_outside hq]
        apply NoSep_append (NoSep_nocomma (by decide))
        rw [show List.foldl Q.next .outside ['"'] = .inside from rfl]
        apply NoSep_append (NoSep_inside hv)
        exact NoSep_nocomma (by decide)
    | false =>
      simp only [Bool.false_eq_true, if_false]
      have e : pre ++ (k.name ++ '=' :: k.value) = (pre ++ k.name ++ ['=']) ++ k.value := by simp
      have hb := h.bare hk
      rw [e]
      constructor
      · rw [List.foldl_append, foldl_outside hq]
        exact foldl_outside (fun c hc => (h.value c hc).1)
      · apply NoSep_append (NoSep_nocomma hcm)
        exact NoSep_nocomma (fun hm => (isTokenChar_facts (hb.2 _ hm)).2.2.1 rfl)
  exact ⟨key [] (by simp), key [' '] (by simp)⟩

/-- the written value part -/
def KV.vtext (k : KV) : Str := if k.quoted then '"' :: k.value ++ ['"'] else k.value

theorem trimmed_vtext {k : KV} (h : GoodKV k) : Trimmed k.vtext ∧ k.vtext ≠ [] := by
  unfold KV.vtext
  cases hk : k.quoted with
  | true =>
    refine ⟨⟨?_, ?_⟩, by simp⟩
    · intro c hc; simp at hc; subst hc; decide
    · intro c hc
      simp only [if_true] at hc
      rw [List.getLast?_append] at hc
      simp at hc; subst hc; decide
  | false =>
    have hb := h.bare hk
    refine ⟨?_, by simpa using hb.1⟩
    simp only [Bool.false_eq_true, if_false]
    exact trimmed_of_all _ (fun c hc => (isTokenChar_facts (hb.2 c hc)).2.2.2.2.2.1)

theorem text_eq (k : KV) : k.text = k.name ++ '=' :: k.vtext := rfl

theorem trimmed_text {k : KV} (h : GoodKV k) : Trimmed k.text := by
  obtain ⟨⟨_, h2⟩, h3⟩ := trimmed_vtext h
  have hn := name_facts h
  rw [text_eq]
  constructor
  · intro c hc
    cases hnm : k.name with
    | nil => exact absurd hnm h.name.1
    | cons a l =>
      rw [hnm] at hc
      simp only [List.cons_append, List.head?_cons, Option.some.injEq] at hc
      subst hc
      exact hn.2.2.2.1 a (by rw [hnm]; simp)
  · intro c hc
    apply h2 c
    rw [List.getLast?_append] at hc
    cases hv : k.vtext with
    | nil => exact absurd hv h3
    | cons a l =>
      rw [hv] at hc
      rw [List.getLast?_cons_cons] at hc
      simpa [List.getLast?_cons] using hc

theorem trim_text {k : KV} (h : GoodKV k) : trim k.text = k.text ∧ trim (' ' :: k.text) = k.text := by
  have ht := trim_of_trimmed _ (trimmed_text h)
  refine ⟨ht, ?_⟩
  have : trimStart (' ' :: k.text) = trimStart k.text := by
    unfold trimStart
    simp [List.dropWhile, show isWs ' ' = true from by decide]
  unfold trim at ht ⊢
  rw [this]; exact ht

theorem text_ne_nil (k : KV) : k.text ≠ [] := by simp [KV.text]

theorem pieces_spaced {kvs : List KV} (h : ∀ k ∈ kvs, GoodKV k) : pieces (spaced kvs) = kvs.map KV.text := by
  have hrest : ∀ l : List KV, (∀ k ∈ l, GoodKV k) →
      pieces (l.map (fun k => ' ' :: k.text)) = l.map KV.text := by
    intro l
    induction l with
    | nil => intro _; rfl
    | cons k l ih =>
      intro hl
      rw [List.map_cons, pieces_cons, (trim_text (hl k (by simp))).2]
      rw [if_neg (by simp [text_ne_nil]), ih (fun k hk => hl k (by simp [hk]))]
      rfl
  cases kvs with
  | nil => rfl
  | cons k l =>
    rw [spaced, pieces_cons, (trim_text (h k (by simp))).1, if_neg (by simp [text_ne_nil]),
      hrest l (fun k hk => h k (by simp [hk]))]
    rfl

theorem spaced_elements {kvs : List KV} (h : ∀ k ∈ kvs, GoodKV k) : ∀ p ∈ spaced kvs, Element p := by
  intro p hp
  cases kvs with
  | nil => simp [spaced] at hp
  | cons k l =>
    simp only [spaced, List.mem_cons, List.mem_map] at hp
    rcases hp with rfl | ⟨k', hk', rfl⟩
    · exact (element_text (h k (by simp))).1
    · exact (element_text (h k' (by simp [hk']))).2

theorem split_spaced {kvs : List KV} (h : ∀ k ∈ kvs, GoodKV k) (max : Nat) (hl : kvs.length ≤ max) :
    splitQuotedCommas (joinCommas (spaced kvs)) max = some (kvs.map KV.text) := by
  have := splitS_join max (spaced kvs) [] (spaced_elements h) (Nat.zero_le _)
  rw [pieces_spaced h] at this
  simp only [List.nil_append, List.length_map, hl, if_true] at this
  exact this

/-! ## The server's reader -/

theorem trimMatches_vtext {k : KV} (h : GoodKV k) : trimMatches '"' k.vtext = k.value := by
  rw [trimMatches_eq_strip]
  refine (strips_unique ?_).symm
  have hh : ∀ c, k.value.head? = some c → (c == '"') = false := by
    intro c hc
    have := List.mem_of_mem_head? hc
    simp [(h.value c this).1]
  have hl : ∀ c, k.value.getLast? = some c → (c == '"') = false := by
    intro c hc
    have := List.mem_of_mem_getLast? hc
    simp [(h.value c this).1]
  unfold KV.vtext
  cases hk : k.quoted with
  | true => exact ⟨['"'], ['"'], by simp, by simp, by simp, hh, hl⟩
  | false => exact ⟨[], [], by simp, by simp, by simp, hh, hl⟩

def tableOf (kvs : List KV) (acc : Tbl Str Str) : Tbl Str Str :=
  kvs.foldl (fun t k => t.insert k.name k.value) acc

theorem collectParams_texts : ∀ (kvs : List KV) (acc : Tbl Str Str), (∀ k ∈ kvs, GoodKV k) →
    (kvs.map KV.name).Nodup → (∀ k ∈ kvs, acc.get k.name = none) →
    collectParams (kvs.map KV.text) acc = some (tableOf kvs acc)
  | [], acc, _, _, _ => rfl
  | k :: l, acc, h, hn, ha => by
    have hk := h k (by simp)
    obtain ⟨_, _, n3, n4, n5, _⟩ := name_facts hk
    simp only [List.map_cons, List.nodup_cons] at hn
    rw [List.map_cons, collectParams, text_eq, splitOnce_append _ _ _ n3]
    simp only [trim_of_trimmed _ (trimmed_of_all _ n4), n5, trim_of_trimmed _ (trimmed_vtext hk).1,
      trimMatches_vtext hk, Tbl.contains, ha k (by simp), Option.isSome_none, Bool.false_eq_true, if_false]
    refine collectParams_texts l _ (fun k' hk' => h k' (by simp [hk'])) hn.2 ?_
    intro k' hk'
    have : k'.name ≠ k.name := fun e => hn.1 (by rw [← e]; exact List.mem_map_of_mem hk')
    rw [Tbl.get_insert_ne _ _ this]
    exact ha k' (by simp [hk'])

theorem tableOf_get : ∀ (kvs : List KV) (acc : Tbl Str Str) (n : Str), (kvs.map KV.name).Nodup →
    (tableOf kvs acc).get n = match kvs.find? (fun k => k.name == n) with
      | some k => some k.value
      | none => acc.get n
  | [], acc, n, _ => rfl
  | k :: l, acc, n, hn => by
    simp only [List.map_cons, List.nodup_cons] at hn
    have ih := tableOf_get l (acc.insert k.name k.value) n hn.2
    unfold tableOf at ih ⊢
    rw [List.foldl_cons, ih, List.find?_cons]
    by_cases he : k.name = n
    · have hnone : l.find? (fun k => k.name == n) = none := by
        rw [List.find?_eq_none]
        intro x hx
        simp only [beq_iff_eq]
        intro e
        exact hn.1 (by rw [he, ← e]; exact List.mem_map_of_mem hx)
      simp [he, hnone]
    · have : (k.name == n) = false := by simp [he]
      rw [this]
      simp only
      cases l.find? (fun k => k.name == n) with
      | some x => rfl
      | none => exact Tbl.get_insert_ne _ _ (Ne.symm he)

theorem tableOf_mem {kvs : List KV} {k : KV} (hn : (kvs.map KV.name).Nodup) (hk : k ∈ kvs) (acc : Tbl Str Str) :
    (tableOf kvs acc).get k.name = some k.value := by
  rw [tableOf_get _ _ _ hn]
  have : kvs.find? (fun x => x.name == k.name) = some k := by
    induction kvs with
    | nil => simp at hk
    | cons a l ih =>
      simp only [List.map_cons, List.nodup_cons] at hn
      rw [List.find?_cons]
      rcases List.mem_cons.mp hk with rfl | hk
      · simp
      · have : (a.name == k.name) = false := by
          simp only [beq_eq_false_iff_ne]
          intro e; exact hn.1 (by rw [e]; exact List.mem_map_of_mem hk)
        rw [this]; exact ih hn.2 hk
  rw [this]

theorem tableOf_not_mem {kvs : List KV} {n : Str} (hn : (kvs.map KV.name).Nodup) (h : n ∉ kvs.map KV.name) :
    (tableOf kvs []).get n = none := by
  rw [tableOf_get _ _ _ hn]
  have : kvs.find? (fun x => x.name == n) = none := by
    rw [List.find?_eq_none]
    intro x hx
    simp only [beq_iff_eq]
    intro e; exact h (by rw [← e]; exact List.mem_map_of_mem hx)
  rw [this]; rfl

/-- all keys lower-case tokens, all values acceptable -/
theorem fromRawGo_ok : ∀ (params : List (Str × Str)) (acc : Tbl Str Str),
    (∀ q ∈ params, validToken MAX_PARAM_NAME_LENGTH q.1 = true ∧ validParamValue q.2 = true ∧ lower q.1 = q.1) →
    (params.map (·.1)).Nodup → (∀ q ∈ params, acc.get q.1 = none) →
    acc.length + params.length ≤ MAX_AUTH_PARAMS → ∃ out, fromRawGo params acc = some out
  | [], acc, _, _, _, _ => ⟨acc, rfl⟩
  | (n, v) :: l, acc, h, hn, ha, hl => by
    obtain ⟨h1, h2, h3⟩ := h (n, v) (by simp)
    simp only at h1 h2 h3
    simp only [List.map_cons, List.nodup_cons] at hn
    have hacc := ha (n, v) (by simp)
    simp only at hacc
    simp only [List.length_cons] at hl
    simp only [fromRawGo, h1, h2, h3, Tbl.contains, hacc, Bool.not_true, Bool.false_eq_true, if_false,
      Option.isSome_none]
    rw [if_neg (by omega)]
    have hrem : acc.insert n v = (n, v) :: acc := by
      unfold Tbl.insert
      rw [Tbl.remove_of_not_mem _ _ ((Tbl.get_eq_none_iff _ _).mp hacc)]
    refine fromRawGo_ok l _ (fun q hq => h q (by simp [hq])) hn.2 ?_ ?_
    · intro q hq
      have : q.1 ≠ n := fun e => hn.1 (by rw [← e]; exact List.mem_map_of_mem hq)
      rw [Tbl.get_insert_ne _ _ this]; exact ha q (by simp [hq])
    · rw [hrem, List.length_cons]; omega

theorem tableOf_facts : ∀ (kvs : List KV) (acc : Tbl Str Str), (Tbl.keys acc).Nodup →
    (Tbl.keys (tableOf kvs acc)).Nodup ∧ (tableOf kvs acc).length ≤ acc.length + kvs.length ∧
    ∀ q ∈ tableOf kvs acc, q ∈ acc ∨ ∃ k ∈ kvs, q = (k.name, k.value)
  | [], acc, h => ⟨h, by simp [tableOf], fun q hq => Or.inl hq⟩
  | k :: l, acc, h => by
    obtain ⟨h1, h2, h3⟩ := tableOf_facts l (acc.insert k.name k.value) (Tbl.nodup_insert _ _ _ h)
    refine ⟨h1, ?_, ?_⟩
    · have := Tbl.length_insert_le acc k.name k.value
      rw [List.length_cons]
      exact Nat.le_trans h2 (by omega)
    · intro q hq
      rcases h3 q hq with hq | ⟨k', hk', e⟩
      · simp only [Tbl.insert, Tbl.remove, List.mem_cons, List.mem_filter] at hq
        rcases hq with rfl | ⟨hq, _⟩
        · exact Or.inr ⟨k, by simp, rfl⟩
        · exact Or.inl hq
      · exact Or.inr ⟨k', by simp [hk'], e⟩

theorem trimmed_digest {kvs : List KV} (h : ∀ k ∈ kvs, GoodKV k) (hne : kvs ≠ []) :
    Trimmed ("Digest".toList ++ ' ' :: joinCommas (spaced kvs)) := by
  constructor
  · intro c hc
    have : c = 'D' := by
      have : ("Digest".toList ++ ' ' :: joinCommas (spaced kvs)).head? = some 'D' := rfl
      rw [this] at hc; simpa using hc.symm
    subst this; decide
  · have hlast : ∀ (l : List KV) (p : Str), (∀ k ∈ l, GoodKV k) → (p ≠ [] ∧ ∀ c, p.getLast? = some c → isWs c = false) →
        joinCommas (p :: l.map (fun k => ' ' :: k.text)) ≠ [] ∧
        ∀ c, (joinCommas (p :: l.map (fun k => ' ' :: k.text))).getLast? = some c → isWs c = false := by
      intro l
      induction l with
      | nil => intro p _ hp; exact hp
      | cons k l ih =>
        intro p hl hp
        obtain ⟨i1, i2⟩ := ih (' ' :: k.text) (fun k hk => hl k (by simp [hk])) ⟨by simp, by
          intro c hc
          rw [List.getLast?_cons] at hc
          apply (trimmed_text (hl k (by simp))).2 c
          cases ht : k.text with
          | nil => exact absurd ht (text_ne_nil k)
          | cons a t => rw [ht] at hc; simpa [List.getLast?_cons] using hc⟩
        rw [List.map_cons, joinCommas_cons _ _ (by simp)]
        refine ⟨by simp, ?_⟩
        intro c hc
        apply i2 c
        rw [List.getLast?_append] at hc
        generalize joinCommas ((' ' :: k.text) :: l.map (fun k => ' ' :: k.text)) = j at *
        cases j with
        | nil => exact absurd rfl i1
        | cons a t => simpa [List.getLast?_cons] using hc
    intro c hc
    cases kvs with
    | nil => exact absurd rfl hne
    | cons k l =>
      have := hlast l k.text (fun k hk => h k (by simp [hk])) ⟨text_ne_nil k, (trimmed_text (h k (by simp))).2⟩
      apply this.2 c
      rw [List.getLast?_append] at hc
      simp only [spaced] at hc
      generalize joinCommas (k.text :: l.map (fun k => ' ' :: k.text)) = j at *
      cases j with
      | nil => exact absurd rfl this.1
      | cons a t => simpa [List.getLast?_cons] using hc

/-- What is written as a parameter list is read back by the server's parser. -/
theorem parse_render {kvs : List KV} (h : ∀ k ∈ kvs, GoodKV k) (hn : (kvs.map KV.name).Nodup)
    (hne : kvs ≠ []) (hl : kvs.length ≤ 30) (hv : ∀ k ∈ kvs, utf8Len k.value ≤ 256) :
    ∃ ah, parseAuthorization ("Digest".toList ++ ' ' :: joinCommas (spaced kvs)) = some ah ∧
      ah.scheme = "Digest".toList ∧ (∀ k ∈ kvs, ah.param k.name = some k.value) ∧
      (∀ n, lower n = n → n ∉ kvs.map KV.name → ah.param n = none) := by
  unfold parseAuthorization
  rw [trim_of_trimmed _ (trimmed_digest h hne)]
  have hsp : splitOnce ' ' ("Digest".toList ++ ' ' :: joinCommas (spaced kvs))
      = some ("Digest".toList, joinCommas (spaced kvs)) := splitOnce_append _ _ _ (by decide)
  simp only [hsp]
  rw [if_neg (by simp)]
  rw [split_spaced h MAX_PARAMS (by simp only [MAX_PARAMS]; omega)]
  simp only
  rw [collectParams_texts kvs [] h hn (by intros; rfl)]
  simp only
  obtain ⟨f1, f2, f3⟩ := tableOf_facts kvs [] (by simp [Tbl.keys])
  have hall : ∀ q ∈ tableOf kvs [], validToken MAX_PARAM_NAME_LENGTH q.1 = true ∧ validParamValue q.2 = true ∧
      lower q.1 = q.1 := by
    intro q hq
    rcases f3 q hq with hq | ⟨k, hk, rfl⟩
    · simp at hq
    · obtain ⟨_, _, _, _, n5, n6⟩ := name_facts (h k hk)
      refine ⟨n6, ?_, n5⟩
      unfold validParamValue
      have := hv k hk
      simp only [Bool.and_eq_true, Bool.not_eq_true', decide_eq_false_iff_not, List.any_eq_false]
      refine ⟨Nat.not_lt.mpr this, ?_⟩
      intro c hc
      simp [((h k hk).value c hc).2.2]
  obtain ⟨out, hout⟩ := fromRawGo_ok (tableOf kvs []) [] hall f1 (by intros; rfl)
    (by simp only [MAX_AUTH_PARAMS, List.length_nil] at *; omega)
  have hget := fromRawGo_some _ _ _ hout (fun q hq => (hall q hq).2.2)
  refine ⟨{ scheme := "Digest".toList, params := out }, ?_, rfl, ?_, ?_⟩
  · unfold fromRaw
    rw [show trim "Digest".toList = "Digest".toList from by decide]
    rw [if_neg (by decide), hout]; rfl
  · intro k hk
    unfold AuthHeader.param
    simp only
    rw [(name_facts (h k hk)).2.2.2.2.1, hget, tableOf_mem hn hk]
  · intro n hln hnm
    unfold AuthHeader.param
    simp only
    rw [hln, hget, tableOf_not_mem hn hnm]
    rfl

/-! ## The user agent's reader -/

theorem splitAuth_of_splitS (max : Nat) : ∀ (s cur : Str) (q : Q) (parts out : List Str),
    '\\' ∉ s → q ≠ .escaped → splitS max s cur q parts = some out →
    out = parts ++ splitAuthParams s cur (q == .inside)
  | [], cur, q, parts, out, _, hq, h => by
    rw [splitS_nil] at h
    split at h
    · cases h
    · rename_i hq'
      have : q = .outside := by simpa using hq'
      subst this
      simp only [splitAuthParams]
      split at h
      · rename_i hb; rw [if_pos hb]; simpa using h.symm
      · rename_i hb; rw [if_neg hb]
        split at h
        · cases h
        · simpa using h.symm
  | c :: s, cur, q, parts, out, hs, hq, h => by
    have hs' : '\\' ∉ s := fun hm => hs (by simp [hm])
    have hc' : c ≠ '\\' := fun e => hs (by simp [e])
    by_cases hc : c = ',' ∧ q = .outside
    · obtain ⟨rfl, rfl⟩ := hc
      rw [splitS_comma] at h
      simp only [splitAuthParams]
      rw [if_neg (by decide), if_pos ⟨trivial, by decide⟩]
      split at h
      · rename_i hb
        rw [if_pos hb]
        exact splitAuth_of_splitS max s [] .outside parts out hs' (by simp) h
      · rename_i hb
        rw [if_neg hb]
        split at h
        · cases h
        · have := splitAuth_of_splitS max s [] .outside _ out hs' (by simp) h
          simpa using this
    · rw [splitS_cons _ _ _ _ _ _ hc] at h
      have hq2 : q.next c ≠ .escaped := by
        cases q with
        | outside => simp only [Q.next]; split <;> simp
        | inside => simp only [Q.next]; split <;> simp [hc']
        | escaped => exact absurd rfl hq
      have ih := splitAuth_of_splitS max s _ _ parts out hs' hq2 h
      simp only [splitAuthParams]
      by_cases hd : c = '"'
      · rw [if_pos hd, ih]
        subst hd
        cases q with
        | outside => rfl
        | inside => rfl
        | escaped => exact absurd rfl hq
      · rw [if_neg hd, ih]
        have hkeep : q.next c = q := by
          cases q with
          | outside => simp [Q.next, hd]
          | inside => simp [Q.next, hd, hc']
          | escaped => exact absurd rfl hq
        rw [hkeep, if_neg]
        rintro ⟨h1, h2⟩
        apply hc
        refine ⟨h1, ?_⟩
        cases q with
        | outside => rfl
        | inside => exact absurd h2 (by decide)
        | escaped => exact absurd rfl hq

theorem joinCommas_mem {c : Char} : ∀ (ps : List Str), c ∈ joinCommas ps → c = ',' ∨ ∃ p ∈ ps, c ∈ p
  | [], h => by simp [joinCommas] at h
  | [p], h => Or.inr ⟨p, by simp, h⟩
  | p :: p' :: ps, h => by
    simp only [joinCommas, List.mem_append, List.mem_cons] at h
    rcases h with h | h | h
    · exact Or.inr ⟨p, by simp, h⟩
    · exact Or.inl h
    · rcases joinCommas_mem (p' :: ps) h with h | ⟨x, hx, h⟩
      · exact Or.inl h
      · exact Or.inr ⟨x, by simp [List.mem_cons.mp hx], h⟩

theorem text_no_backslash {k : KV} (h : GoodKV k) : '\\' ∉ k.text := by
  have hn : '\\' ∉ k.name := by
    intro hm
    exact (isTokenChar_facts ((isLowerToken_facts (h.name.2.1 _ hm)).1)).2.1 rfl
  have hv : '\\' ∉ k.value := fun hm => (h.value _ hm).2.1 rfl
  unfold KV.text
  cases k.quoted <;> simp [hn, hv]

theorem spaced_no_backslash {kvs : List KV} (h : ∀ k ∈ kvs, GoodKV k) : '\\' ∉ joinCommas (spaced kvs) := by
  intro hm
  rcases joinCommas_mem _ hm with e | ⟨p, hp, hm⟩
  · exact absurd e (by decide)
  · cases kvs with
    | nil => simp [spaced] at hp
    | cons k l =>
      simp only [spaced, List.mem_cons, List.mem_map] at hp
      rcases hp with rfl | ⟨k', hk', rfl⟩
      · exact text_no_backslash (h k (by simp)) hm
      · simp only [List.mem_cons] at hm
        rcases hm with e | hm
        · exact absurd e (by decide)
        · exact text_no_backslash (h k' (by simp [hk'])) hm

theorem uac_split_spaced {kvs : List KV} (h : ∀ k ∈ kvs, GoodKV k) :
    splitAuthParams (joinCommas (spaced kvs)) [] false = kvs.map KV.text := by
  have h1 := split_spaced h kvs.length (Nat.le_refl _)
  have h2 := splitAuth_of_splitS kvs.length _ [] .outside [] _ (spaced_no_backslash h) (by simp) h1
  exact h2.symm

theorem unquote_vtext {k : KV} (h : GoodKV k) : unquote k.vtext = .ok k.value := by
  unfold unquote KV.vtext
  cases hk : k.quoted with
  | true =>
    simp only [if_true]
    rw [if_pos ⟨rfl, by rw [List.getLast?_append]; rfl⟩, if_neg (by simp)]
    simp
  | false =>
    simp only [Bool.false_eq_true, if_false]
    rw [if_neg]
    rintro ⟨h1, _⟩
    exact (h.value _ (List.mem_of_mem_head? h1)).1 rfl

theorem challengeGo_texts : ∀ (kvs : List KV) (count : Nat) (acc : Tbl Str Str), (∀ k ∈ kvs, GoodKV k) →
    count + kvs.length ≤ UAC_MAX_AUTH_PARAMS →
    challengeGo (kvs.map KV.text) count acc = .ok (tableOf kvs acc)
  | [], count, acc, _, _ => rfl
  | k :: l, count, acc, h, hl => by
    have hk := h k (by simp)
    obtain ⟨_, _, n3, n4, n5, _⟩ := name_facts hk
    simp only [List.length_cons] at hl
    rw [List.map_cons, challengeGo, if_neg (by omega)]
    simp only [(trim_text hk).1]
    have hpre : "Digest".toList.isPrefixOf k.text = false := by
      cases hnm : k.name with
      | nil => exact absurd hnm hk.name.1
      | cons a t =>
        have ha := (isLowerToken_facts (hk.name.2.1 a (by rw [hnm]; simp))).2.2.1
        rw [text_eq, hnm]
        have : "Digest".toList = 'D' :: "igest".toList := by decide
        rw [this, List.cons_append, List.isPrefixOf]
        have : ('D' == a) = false := by simp [Ne.symm ha]
        rw [this]; rfl
    rw [hpre]
    simp only [Bool.false_eq_true, if_false]
    have hts : trimStart k.text = k.text := dropWhile_of_head _ (trimmed_text hk).1
    rw [hts, text_eq, splitOnce_append _ _ _ n3]
    simp only [trim_of_trimmed _ (trimmed_vtext hk).1, unquote_vtext hk, trim_of_trimmed _ (trimmed_of_all _ n4)]
    exact challengeGo_texts l (count + 1) _ (fun k' hk' => h k' (by simp [hk'])) (by omega)

theorem afterDigest_digest (r : Str) : afterDigest ("Digest".toList ++ r) = some r := by
  have e : "Digest".toList = ['D', 'i', 'g', 'e', 's', 't'] := by decide
  have e' : "digest".toList = ['d', 'i', 'g', 'e', 's', 't'] := by decide
  rw [e]
  simp only [List.cons_append, List.nil_append, afterDigest, e', lower, List.map_cons]
  rw [if_pos]
  · rfl
  · rfl

/-- What is written as a challenge is read back by the user agent. -/
theorem uac_parse_render {kvs : List KV} (h : ∀ k ∈ kvs, GoodKV k) (hne : kvs ≠ []) (hl : kvs.length ≤ 20) :
    parseWwwAuthenticate ("Digest".toList ++ ' ' :: joinCommas (spaced kvs)) = .ok (tableOf kvs []) := by
  unfold parseWwwAuthenticate
  rw [trim_of_trimmed _ (trimmed_digest h hne), afterDigest_digest]
  have hts : trimStart (' ' :: joinCommas (spaced kvs)) = joinCommas (spaced kvs) := by
    unfold trimStart
    rw [List.dropWhile_cons, show isWs ' ' = true from by decide]
    simp only [if_true]
    apply dropWhile_of_head
    intro c hc
    cases kvs with
    | nil => exact absurd rfl hne
    | cons k l =>
      have ht := (trimmed_text (h k (by simp))).1
      apply ht c
      cases hk : k.text with
      | nil => exact absurd hk (text_ne_nil k)
      | cons a t =>
        cases l with
        | nil => simpa [spaced, joinCommas, hk] using hc
        | cons x l => simpa [spaced, joinCommas, hk] using hc
  simp only [hts]
  rw [uac_split_spaced h]
  exact challengeGo_texts kvs 0 [] h (by simp only [UAC_MAX_AUTH_PARAMS]; omega)

end Siphon.Auth
