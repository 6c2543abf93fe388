import Verif.Base.TextLemmas
/-! Stripping characters from both ends of a text. -/
set_option linter.unusedSimpArgs false
namespace Siphon
open TextSpec

/-! ## Stripping -/

def stripBoth (P : Char → Bool) (s : Str) : Str := ((s.dropWhile P).reverse.dropWhile P).reverse

theorem trim_eq_strip (s : Str) : trim s = stripBoth isWs s := rfl

theorem dropWhile_append_all {P : Char → Bool} (a b : Str) (h : ∀ c ∈ a, P c = true) :
    (a ++ b).dropWhile P = b.dropWhile P := by
  induction a with
  | nil => rfl
  | cons x xs ih =>
    simp only [List.cons_append, List.dropWhile, h x (by simp)]
    exact ih (fun c hc => h c (by simp [hc]))

theorem dropWhile_split {P : Char → Bool} (s : Str) :
    ∃ a, s = a ++ s.dropWhile P ∧ (∀ c ∈ a, P c = true) :=
  ⟨s.takeWhile P, by simp, fun c hc => by
    induction s with
    | nil => simp at hc
    | cons x xs ih =>
      simp only [List.takeWhile] at hc
      split at hc
      · rename_i hx
        rcases List.mem_cons.mp hc with rfl | hc
        · exact hx
        · exact ih hc
      · simp at hc⟩

theorem dropWhile_head {P : Char → Bool} (s : Str) (c : Char) (h : (s.dropWhile P).head? = some c) :
    P c = false := by
  induction s with
  | nil => simp at h
  | cons x xs ih =>
    simp only [List.dropWhile] at h
    split at h
    · exact ih h
    · rename_i hx
      simp only [List.head?_cons, Option.some.injEq] at h
      rw [← h]; exact hx

theorem strips_stripBoth (P : Char → Bool) (s : Str) : Strips P s (stripBoth P s) := by
  obtain ⟨a, ha, ha'⟩ := dropWhile_split (P := P) s
  obtain ⟨b, hb, hb'⟩ := dropWhile_split (P := P) (s.dropWhile P).reverse
  refine ⟨a, b.reverse, ?_, ha', by simpa using hb', ?_, ?_⟩
  · have : s.dropWhile P = stripBoth P s ++ b.reverse := by
      have := congrArg List.reverse hb
      simpa [stripBoth] using this
    rw [List.append_assoc, ← this]; exact ha
  · intro c hc
    have hh : (s.dropWhile P).head? = some c := by
      have : s.dropWhile P = stripBoth P s ++ b.reverse := by
        have := congrArg List.reverse hb
        simpa [stripBoth] using this
      rw [this]
      cases hs : stripBoth P s with
      | nil => rw [hs] at hc; simp at hc
      | cons x xs => rw [hs] at hc; simpa using hc
    exact dropWhile_head s c hh
  · intro c hc
    unfold stripBoth at hc
    rw [List.getLast?_reverse] at hc
    exact dropWhile_head _ c hc

theorem strips_unique {P : Char → Bool} {s t : Str} (h : Strips P s t) : t = stripBoth P s := by
  obtain ⟨a, b, rfl, ha, hb, h1, h2⟩ := h
  unfold stripBoth
  rw [List.append_assoc, dropWhile_append_all a _ ha]
  cases t with
  | nil =>
    have : b.dropWhile P = [] := by
      have := dropWhile_append_all b [] hb
      simpa using this
    simp [this]
  | cons x xs =>
    have hx := h1 x rfl
    have e1 : ((x :: xs) ++ b).dropWhile P = (x :: xs) ++ b := by
      simp [List.dropWhile, hx]
    rw [e1, List.reverse_append, dropWhile_append_all _ _ (by simpa using hb)]
    rw [dropWhile_of_head _ (by
      intro c hc
      rw [List.head?_reverse] at hc
      exact h2 c hc)]
    simp

theorem strips_iff (P : Char → Bool) (s t : Str) : Strips P s t ↔ t = stripBoth P s :=
  ⟨strips_unique, fun h => h ▸ strips_stripBoth P s⟩

theorem strips_trim (s t : Str) : Strips isWs s t ↔ t = trim s := strips_iff _ _ _

/-- White space around a text without white space at its ends does not matter. -/
theorem trim_pad (a t b : Str) (ha : ∀ c ∈ a, isWs c = true) (hb : ∀ c ∈ b, isWs c = true) (ht : Trimmed t) :
    trim (a ++ t ++ b) = t :=
  ((strips_trim _ _).mp ⟨a, b, rfl, ha, hb, ht.1, ht.2⟩).symm

end Siphon
