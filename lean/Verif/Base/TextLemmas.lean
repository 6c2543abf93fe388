import Verif.Base.TextSpec
import Verif.Base.Num
set_option linter.unusedSimpArgs false
namespace Siphon
open TextSpec

/-! ## Decimal numbers -/

theorem decDigits_ne {s : Str} {n : Nat} (h : DecDigits s n) : s ≠ [] := by
  cases h <;> simp

theorem decDigits_val {t : Str} {n : Nat} (h : DecDigits t n) :
    n = t.foldl (fun a c => a * 10 + (c.toNat - 48)) 0 ∧ ∀ c ∈ t, isDigit c = true := by
  induction h with
  | one h1 h2 => exact ⟨by simp, by simpa [isDigit_iff] using ⟨h1, h2⟩⟩
  | snoc _ h1 h2 ih =>
    refine ⟨by rw [List.foldl_append, ← ih.1]; simp, ?_⟩
    intro x hx
    rcases List.mem_append.mp hx with hx | hx
    · exact ih.2 x hx
    · rw [List.mem_singleton.mp hx, isDigit_iff]; exact ⟨h1, h2⟩

theorem not_digit_plus : isDigit '+' = false := by decide

theorem decimal_fun {t : Str} {a b : Nat} (ha : Decimal t a) (hb : Decimal t b) : a = b := by
  rcases ha with ha | ⟨r, rfl, ha⟩ <;> rcases hb with hb | ⟨r', e, hb⟩
  · rw [(decDigits_val ha).1, (decDigits_val hb).1]
  · have := (decDigits_val ha).2 '+' (by rw [e]; simp)
    simp [not_digit_plus] at this
  · have := (decDigits_val hb).2 '+' (by simp)
    simp [not_digit_plus] at this
  · simp only [List.cons.injEq, true_and] at e
    subst e
    rw [(decDigits_val ha).1, (decDigits_val hb).1]

theorem parseDecDigits_some (max : Nat) : ∀ (cs : Str) (pre : Str) (acc n : Nat),
    (pre = [] ∧ acc = 0 ∨ DecDigits pre acc) → parseDecDigits max cs acc = some n →
    (pre ++ cs ≠ []) → DecDigits (pre ++ cs) n
  | [], pre, acc, n, hpre, h, hne => by
    simp only [parseDecDigits, Option.some.injEq] at h
    subst h
    rcases hpre with ⟨rfl, rfl⟩ | hpre
    · simp at hne
    · simpa using hpre
  | c :: cs, pre, acc, n, hpre, h, hne => by
    simp only [parseDecDigits] at h
    split at h
    · rename_i hd
      obtain ⟨h1, h2⟩ := (isDigit_iff c).mp hd
      split at h
      · cases h
      · have hstep : DecDigits (pre ++ [c]) (acc * 10 + (c.toNat - 48)) := by
          rcases hpre with ⟨rfl, rfl⟩ | hpre
          · simpa using DecDigits.one h1 h2
          · exact .snoc hpre h1 h2
        have := parseDecDigits_some max cs (pre ++ [c]) _ n (Or.inr hstep) h (by simp)
        simpa using this
    · cases h

theorem parseDec_some {max : Nat} {t : Str} {n : Nat} (h : parseDec max t = some n) : Decimal t n := by
  unfold parseDec at h
  split at h
  · cases h
  · cases h
  · rename_i hne
    right
    refine ⟨_, rfl, ?_⟩
    have := parseDecDigits_some max _ [] 0 n (Or.inl ⟨rfl, rfl⟩) h
    simp only [List.nil_append] at this
    apply this
    intro he
    simp [he] at hne
  · rename_i hne _ _
    left
    have := parseDecDigits_some max t [] 0 n (Or.inl ⟨rfl, rfl⟩) h
    simp only [List.nil_append] at this
    exact this hne

theorem foldl_dec_ge : ∀ (t : Str) (acc : Nat), acc ≤ t.foldl (fun a c => a * 10 + (c.toNat - 48)) acc
  | [], _ => Nat.le_refl _
  | c :: t, acc => by
    have := foldl_dec_ge t (acc * 10 + (c.toNat - 48))
    simp only [List.foldl_cons]
    omega

theorem parseDecDigits_complete (max : Nat) : ∀ (t : Str) (acc : Nat), (∀ c ∈ t, isDigit c = true) →
    t.foldl (fun a c => a * 10 + (c.toNat - 48)) acc ≤ max →
    parseDecDigits max t acc = some (t.foldl (fun a c => a * 10 + (c.toNat - 48)) acc)
  | [], _, _, _ => rfl
  | c :: t, acc, hd, hm => by
    have hc := hd c (by simp)
    have hge := foldl_dec_ge t (acc * 10 + (c.toNat - 48))
    simp only [List.foldl_cons] at hm ⊢
    simp only [parseDecDigits, hc, if_true]
    rw [if_neg (by omega)]
    exact parseDecDigits_complete max t _ (fun x hx => hd x (by simp [hx])) hm

theorem parseDec_complete {max : Nat} {t : Str} {n : Nat} (h : Decimal t n) (hn : n ≤ max) :
    parseDec max t = some n := by
  rcases h with h | ⟨r, rfl, h⟩
  · obtain ⟨h1, h2⟩ := decDigits_val h
    have hne := decDigits_ne h
    unfold parseDec
    split
    · exact absurd rfl hne
    · have := h2 '+' (by simp); simp [not_digit_plus] at this
    · have := h2 '+' (by simp); simp [not_digit_plus] at this
    · rw [parseDecDigits_complete max t 0 h2 (by rw [← h1]; exact hn), ← h1]
  · obtain ⟨h1, h2⟩ := decDigits_val h
    have hne := decDigits_ne h
    unfold parseDec
    split
    · rename_i e; cases e
    · rename_i e; simp only [List.cons.injEq, true_and] at e; exact absurd e hne
    · rename_i r' _ e
      simp only [List.cons.injEq, true_and] at e
      subst e
      rw [parseDecDigits_complete max r 0 h2 (by rw [← h1]; exact hn), ← h1]
    · rename_i hx; exact absurd rfl (hx r)

theorem parseDec_iff (max : Nat) (t : Str) (n : Nat) : parseDec max t = some n ↔ Decimal t n ∧ n ≤ max :=
  ⟨fun h => ⟨parseDec_some h, parseDec_le max t n h⟩, fun h => parseDec_complete h.1 h.2⟩

/-! ## Pieces -/

theorem join_cons (c : Char) (p : Str) (ps : List Str) (h : ps ≠ []) : join c (p :: ps) = p ++ c :: join c ps := by
  cases ps with
  | nil => exact absurd rfl h
  | cons q qs => rfl

theorem splitChar_join (c : Char) : ∀ ps : List Str, ps ≠ [] → (∀ p ∈ ps, c ∉ p) → splitChar c (join c ps) = ps
  | [], h, _ => absurd rfl h
  | [p], _, hp => splitChar_of_not_mem c p (hp p (by simp))
  | p :: q :: qs, _, hp => by
    rw [join_cons c p _ (by simp), splitChar_append_sep c p _ (hp p (by simp)),
      splitChar_join c (q :: qs) (by simp) (fun x hx => hp x (by simp [List.mem_cons.mp hx]))]

theorem join_splitChar (c : Char) : ∀ s : Str, join c (splitChar c s) = s ∧ ∀ p ∈ splitChar c s, c ∉ p
  | [] => ⟨rfl, by simp [splitChar]⟩
  | x :: xs => by
    obtain ⟨h1, h2⟩ := join_splitChar c xs
    have hne := splitChar_ne_nil c xs
    simp only [splitChar]
    by_cases hx : x = c
    · subst hx
      simp only [if_true]
      refine ⟨by rw [join_cons _ _ _ hne, h1]; rfl, ?_⟩
      intro p hp
      rcases List.mem_cons.mp hp with rfl | hp
      · simp
      · exact h2 p hp
    · simp only [if_neg hx]
      cases hs : splitChar c xs with
      | nil => exact absurd hs hne
      | cons p ps =>
        rw [hs] at h1 h2
        simp only
        constructor
        · cases ps with
          | nil => simp only [join] at h1 ⊢; rw [h1]
          | cons q qs =>
            rw [join_cons c (x :: p) (q :: qs) (by simp)]
            rw [join_cons c p (q :: qs) (by simp)] at h1
            rw [← h1]; rfl
        · intro p' hp'
          rcases List.mem_cons.mp hp' with rfl | hp'
          · have := h2 p (by simp)
            simp [this, Ne.symm hx]
          · exact h2 p' (by simp [hp'])

theorem pieces_iff (c : Char) (s : Str) (ps : List Str) : Pieces c s ps ↔ ps = splitChar c s := by
  constructor
  · rintro ⟨h1, rfl, h3⟩; exact (splitChar_join c ps h1 h3).symm
  · rintro rfl
    exact ⟨splitChar_ne_nil c s, (join_splitChar c s).1.symm, (join_splitChar c s).2⟩

/-! ## Words -/

theorem splitWs_lead (rest : Str) : ∀ lead : Str, (∀ c ∈ lead, isWs c = true) →
    splitWhitespace.go (lead ++ rest) [] = splitWhitespace.go rest []
  | [], _ => rfl
  | x :: xs, h => by
    simp only [List.cons_append, splitWhitespace.go, h x (by simp), if_true, List.isEmpty_nil]
    exact splitWs_lead rest xs (fun c hc => h c (by simp [hc]))

theorem splitWs_word (rest : Str) : ∀ (w cur : Str), (∀ c ∈ w, isWs c = false) →
    splitWhitespace.go (w ++ rest) cur = splitWhitespace.go rest (w.reverse ++ cur)
  | [], _, _ => rfl
  | x :: xs, cur, h => by
    simp only [List.cons_append, splitWhitespace.go, h x (by simp), Bool.false_eq_true, if_false]
    rw [splitWs_word rest xs (x :: cur) (fun c hc => h c (by simp [hc]))]
    simp

theorem splitWs_of_words {s : Str} {ws : List Str} (h : Words s ws) : splitWhitespace s = ws := by
  unfold splitWhitespace
  induction h with
  | nil h =>
    have := splitWs_lead [] _ h
    rw [List.append_nil] at this
    rw [this]; rfl
  | @cons lead w rest ws hl hw hn hr _ ih =>
    rw [splitWs_lead _ _ hl, splitWs_word _ _ _ hn, List.append_nil]
    cases rest with
    | nil =>
      have e : ws = [] := by rw [← ih]; rfl
      subst e
      simp [splitWhitespace.go, hw]
    | cons x xs =>
      have hx := hr x rfl
      have ih' : splitWhitespace.go xs [] = ws := by
        rw [← ih]; simp [splitWhitespace.go, hx]
      simp only [splitWhitespace.go, hx, if_true]
      rw [if_neg (by simpa using hw), ih', List.reverse_reverse]

theorem words_go : ∀ (s cur : Str), (∀ c ∈ cur, isWs c = false) →
    Words (cur.reverse ++ s) (splitWhitespace.go s cur)
  | [], cur, h => by
    simp only [splitWhitespace.go]
    cases cur with
    | nil => exact .nil (by simp)
    | cons x xs =>
      simp only [List.isEmpty_cons, Bool.false_eq_true, if_false]
      have := Words.cons (lead := []) (w := (x :: xs).reverse) (rest := []) (ws := []) (by simp) (by simp)
        (by intro c hc; exact h c (List.mem_reverse.mp hc)) (by simp) (.nil (by simp))
      simpa using this
  | x :: xs, cur, h => by
    simp only [splitWhitespace.go]
    split
    · rename_i hx
      have ih := words_go xs [] (by simp)
      simp only [List.reverse_nil, List.nil_append] at ih
      cases cur with
      | nil =>
        simp only [List.isEmpty_nil, if_true, List.reverse_nil, List.nil_append]
        generalize splitWhitespace.go xs [] = ws at ih
        cases ih with
        | nil h => exact .nil (by intro c hc; rcases List.mem_cons.mp hc with rfl | hc <;> simp_all)
        | @cons lead w rest ws hl hw hn hr hws =>
          have := Words.cons (lead := x :: lead) (w := w) (rest := rest) (ws := ws)
            (by intro c hc; rcases List.mem_cons.mp hc with rfl | hc; exact hx; exact hl c hc) hw hn hr hws
          simpa using this
      | cons y ys =>
        simp only [List.isEmpty_cons, Bool.false_eq_true, if_false]
        have hrest : Words (x :: xs) (splitWhitespace.go xs []) := by
          generalize splitWhitespace.go xs [] = ws at ih
          cases ih with
          | nil h => exact .nil (by intro c hc; rcases List.mem_cons.mp hc with rfl | hc <;> simp_all)
          | @cons lead w rest ws hl hw hn hr hws =>
            have := Words.cons (lead := x :: lead) (w := w) (rest := rest) (ws := ws)
              (by intro c hc; rcases List.mem_cons.mp hc with rfl | hc; exact hx; exact hl c hc) hw hn hr hws
            simpa using this
        have := Words.cons (lead := []) (w := (y :: ys).reverse) (rest := x :: xs) (by simp) (by simp)
          (by intro c hc; exact h c (List.mem_reverse.mp hc)) (by simp [hx]) hrest
        simpa using this
    · rename_i hx
      have := words_go xs (x :: cur) (by
        intro c hc; rcases List.mem_cons.mp hc with rfl | hc
        · simpa using hx
        · exact h c hc)
      simpa using this

theorem words_iff (s : Str) (ws : List Str) : Words s ws ↔ splitWhitespace s = ws := by
  constructor
  · exact splitWs_of_words
  · rintro rfl
    have := words_go s [] (by simp)
    simpa [splitWhitespace] using this

end Siphon
