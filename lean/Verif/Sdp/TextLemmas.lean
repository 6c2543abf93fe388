import Verif.Sdp.LineLemmas
set_option linter.unusedSimpArgs false
/-!
# Lemmas: reading a whole description
-/
namespace Siphon.Sdp
open Siphon.TextSpec Spec

/-! ## Lines of the text -/

theorem skipsEnd_iff (r r' : Str) : SkipsEnd r r' ↔ optEol r = r' := by
  unfold SkipsEnd
  constructor
  · rintro (rfl | rfl | ⟨rfl, h⟩)
    · rfl
    · rfl
    · unfold optEol
      split
      · exact absurd rfl (h _).1
      · exact absurd rfl (h _).2
      · rfl
  · rintro rfl
    unfold optEol
    split
    · exact Or.inl rfl
    · exact Or.inr (Or.inl rfl)
    · rename_i h1 h2
      exact Or.inr (Or.inr ⟨rfl, fun s => ⟨h1 s, h2 s⟩⟩)

theorem reads_head {l : SdpLine} {t : Str} (h : Reads l t) : ∃ c s, t = c :: s ∧ isWs c = false := by
  cases h <;> exact ⟨_, _, rfl, by decide⟩

theorem optEol_length (r : Str) : (optEol r).length ≤ r.length := by
  unfold optEol
  split <;> simp; omega

theorem trim_nil_iff (s : Str) : trim s = [] ↔ ∀ c ∈ s, isWs c = true := by
  constructor
  · intro h c hc
    obtain ⟨a, b, h1, h2, h3, -⟩ := (strips_trim s []).mpr h.symm
    rw [h1] at hc
    simp only [List.nil_append, List.mem_append, List.not_mem_nil, or_false, false_or] at hc
    rcases hc with hc | hc
    · exact h2 c hc
    · exact h3 c hc
  · intro h
    refine ((strips_trim s []).mp ?_).symm
    exact ⟨s, [], by simp, h, by simp, by simp, by simp⟩

theorem parseLines_iff (f : Nat) (s : Str) (hf : s.length < f) (ls : List SdpLine) :
    (trim (parseLines f s).2 = [] ∧ (parseLines f s).1 = ls) ↔ Text ls s := by
  induction f generalizing s ls with
  | zero => omega
  | succ f ih =>
    simp only [parseLines]
    constructor
    · rintro ⟨h1, h2⟩
      cases h : parseLine s with
      | none =>
        rw [h] at h1 h2
        simp only at h1 h2
        subst h2
        exact .nil ((trim_nil_iff s).mp h1)
      | some p =>
        obtain ⟨l, r⟩ := p
        rw [h] at h1 h2
        simp only at h1 h2
        obtain ⟨t, rfl, e2, e3⟩ := (parseLine_iff _ _ _).mp h
        obtain ⟨c, t', rfl, _⟩ := reads_head e2
        have hl : (optEol r).length < f := by
          have := optEol_length r
          simp only [List.length_append, List.length_cons] at hf
          omega
        subst h2
        exact .cons e2 e3 ((skipsEnd_iff _ _).mpr rfl) ((ih (optEol r) hl _).mp ⟨h1, rfl⟩)
    · intro h
      cases h with
      | nil h =>
        have : parseLine s = none := by
          cases hp : parseLine s with
          | none => rfl
          | some p =>
            obtain ⟨l, r⟩ := p
            obtain ⟨t, rfl, e2, _⟩ := (parseLine_iff _ _ _).mp hp
            obtain ⟨c, t', rfl, hc⟩ := reads_head e2
            have := h c (by simp)
            rw [hc] at this
            cases this
        rw [this]
        exact ⟨(trim_nil_iff s).mpr h, rfl⟩
      | @cons l ls t r r' h1 h2 h3 h4 =>
        rw [(parseLine_iff (t ++ r) l r).mpr ⟨t, rfl, h1, h2⟩]
        simp only
        rw [(skipsEnd_iff _ _).mp h3]
        obtain ⟨c, t', rfl, _⟩ := reads_head h1
        have hl : r'.length < f := by
          have := optEol_length r
          rw [(skipsEnd_iff _ _).mp h3] at this
          simp only [List.length_append, List.length_cons] at hf
          omega
        obtain ⟨g1, g2⟩ := (ih r' hl ls).mpr h4
        exact ⟨g1, by rw [g2]⟩

/-! ## Limits -/

theorem dropCr_lf (l : Str) (h : l.getLast? ≠ some '\r') : dropCr l = l := by
  unfold dropCr
  split
  · rename_i r hr
    exact absurd (by rw [List.getLast?_eq_head?_reverse, hr]; rfl) h
  · rfl

theorem dropCr_cr (l : Str) : dropCr (l ++ ['\r']) = l := by
  simp [dropCr]

theorem dropCr_cases (l : Str) : (l.getLast? ≠ some '\r' ∧ dropCr l = l) ∨ l = dropCr l ++ ['\r'] := by
  cases h : l.reverse with
  | nil =>
    left
    have : l = [] := by simpa using h
    subst this
    exact ⟨by simp, rfl⟩
  | cons c r =>
    have hl : l = r.reverse ++ [c] := by rw [← List.reverse_reverse l, h]; simp
    by_cases hc : c = '\r'
    · right
      subst hc
      rw [hl, dropCr_cr]
    · left
      have : l.getLast? ≠ some '\r' := by rw [hl]; simp [hc]
      exact ⟨this, dropCr_lf l this⟩

theorem lines_textLines : ∀ ps : List Str, ps ≠ [] → (∀ p ∈ ps, '\n' ∉ p) → Lines (join '\n' ps) (textLines ps)
  | [], h, _ => absurd rfl h
  | [p], _, h => .last (h p (by simp))
  | p :: q :: ps, _, h => by
    have ih := lines_textLines (q :: ps) (by simp) (fun x hx => h x (List.mem_cons_of_mem _ hx))
    have hp := h p List.mem_cons_self
    rcases dropCr_cases p with ⟨h1, h2⟩ | h1
    · change Lines (p ++ '\n' :: join '\n' (q :: ps)) (dropCr p :: textLines (q :: ps))
      rw [h2]
      exact .lf hp h1 ih
    · change Lines (p ++ '\n' :: join '\n' (q :: ps)) (dropCr p :: textLines (q :: ps))
      have : p ++ '\n' :: join '\n' (q :: ps) = dropCr p ++ '\r' :: '\n' :: join '\n' (q :: ps) := by
        rw [h1, dropCr_cr, List.append_assoc]; rfl
      rw [this]
      refine .crlf ?_ ih
      intro hc
      rw [h1] at hp
      exact hp (List.mem_append_left _ hc)

theorem textLines_cons (p : Str) (ps : List Str) (h : ps ≠ []) : textLines (p :: ps) = dropCr p :: textLines ps := by
  cases ps with
  | nil => exact absurd rfl h
  | cons q ps => rfl

theorem lines_iff (t : Str) (ls : List Str) : Lines t ls ↔ textLines (splitChar '\n' t) = ls := by
  constructor
  · intro h
    induction h with
    | last h => rw [splitChar_of_not_mem _ _ h]; rfl
    | @lf l t ls h1 h2 _ ih =>
      rw [splitChar_append_sep _ _ _ h1, textLines_cons _ _ (splitChar_ne_nil _ _), dropCr_lf l h2, ih]
    | @crlf l t ls h1 _ ih =>
      have : l ++ '\r' :: '\n' :: t = (l ++ ['\r']) ++ '\n' :: t := by simp
      rw [this, splitChar_append_sep _ _ _ (by simp [h1]), textLines_cons _ _ (splitChar_ne_nil _ _), dropCr_cr l, ih]
  · rintro rfl
    obtain ⟨h1, h2⟩ := join_splitChar '\n' t
    have := lines_textLines _ (splitChar_ne_nil '\n' t) h2
    rw [h1] at this
    exact this

theorem fits_iff (t : Str) : Fits t ↔ withinLimits t = true := by
  unfold Fits withinLimits
  have hf : ∀ ls : List Str, ls.filter (fun l => decide (l ≠ [])) = ls.filter (fun l => !l.isEmpty) := by
    intro ls
    congr 1
    funext l
    cases l <;> simp
  simp only [lines_iff, hf, Bool.and_eq_true, decide_eq_true_eq, List.all_eq_true, List.mem_filter]
  constructor
  · rintro ⟨h1, ls, rfl, h3, h4⟩
    exact ⟨⟨h1, h3⟩, fun l hl => h4 l hl.1⟩
  · rintro ⟨⟨h1, h2⟩, h3⟩
    refine ⟨h1, _, rfl, h2, fun l hl => ?_⟩
    cases l with
    | nil => simp [utf8Len]
    | cons c l => exact h3 _ ⟨hl, by simp⟩

/-! ## Sections -/

theorem sections_unique {ls hd hd' : List SdpLine} {secs secs' : List (Media × List SdpLine)} (h : Sections ls hd secs)
    (h' : Sections ls hd' secs') : hd = hd' ∧ secs = secs' := by
  induction h generalizing hd' secs' with
  | @head ls hno =>
    cases h' with
    | head _ => exact ⟨rfl, rfl⟩
    | @media m pre body _ _ secs hb hs he =>
      have := hno (.media m) (by rw [he]; simp)
      cases this
  | @media m pre body rest hd secs hb hs he ih =>
    cases h' with
    | head hno =>
      have := hno (.media m) (by rw [he]; simp)
      cases this
    | @media m' pre' body' _ _ secs' hb' hs' he' =>
      have key : ∀ (pre pre' body body' : List SdpLine) (m m' : Media), (∀ l ∈ body, isMedia l = false) → (∀ l ∈ body', isMedia l = false) →
          pre ++ .media m :: body = pre' ++ .media m' :: body' → pre = pre' ∧ m = m' ∧ body = body' := by
        intro pre pre' body body' m m' hb hb' heq
        induction pre generalizing pre' with
        | nil =>
          cases pre' with
          | nil =>
            simp only [List.nil_append, List.cons.injEq, SdpLine.media.injEq] at heq
            exact ⟨rfl, heq.1, heq.2⟩
          | cons x pre' =>
            simp only [List.nil_append, List.cons_append, List.cons.injEq] at heq
            have := hb (.media m') (by rw [heq.2]; simp)
            cases this
        | cons x pre ih =>
          cases pre' with
          | nil =>
            simp only [List.nil_append, List.cons_append, List.cons.injEq] at heq
            have := hb' (.media m) (by rw [← heq.2]; simp)
            cases this
          | cons y pre' =>
            simp only [List.cons_append, List.cons.injEq] at heq
            obtain ⟨e1, e2, e3⟩ := ih pre' heq.2
            exact ⟨by rw [heq.1, e1], e2, e3⟩
      obtain ⟨rfl, rfl, rfl⟩ := key pre pre' body body' m m' hb hb' (he.symm.trans he')
      obtain ⟨rfl, rfl⟩ := ih hs'
      exact ⟨rfl, rfl⟩

theorem sections_media {ls hd : List SdpLine} {secs : List (Media × List SdpLine)} (h : Sections ls hd secs) (m : Media) :
    Sections (ls ++ [.media m]) hd (secs ++ [(m, [])]) :=
  .media (by simp) h rfl

theorem sections_head {ls hd : List SdpLine} (h : Sections ls hd []) (l : SdpLine) (hl : isMedia l = false) :
    hd = ls ∧ Sections (ls ++ [l]) (ls ++ [l]) [] := by
  generalize hs : ([] : List (Media × List SdpLine)) = secs at h
  cases h with
  | head hno =>
    refine ⟨rfl, .head ?_⟩
    intro x hx
    rcases List.mem_append.mp hx with hx | hx
    · exact hno x hx
    · simp only [List.mem_singleton] at hx
      rw [hx]; exact hl
  | media _ _ _ => simp at hs

theorem sections_body {ls hd : List SdpLine} {q : List (Media × List SdpLine)} {m : Media} {body : List SdpLine}
    (h : Sections ls hd (q ++ [(m, body)])) (l : SdpLine) (hl : isMedia l = false) :
    Sections (ls ++ [l]) hd (q ++ [(m, body ++ [l])]) := by
  generalize hs : q ++ [(m, body)] = secs at h
  cases h with
  | head _ => simp at hs
  | @media m' pre body' _ _ secs' hb hs' he =>
    obtain ⟨rfl, h2⟩ := List.append_inj' hs rfl
    simp only [List.cons.injEq, Prod.mk.injEq, and_true] at h2
    obtain ⟨rfl, rfl⟩ := h2
    refine .media ?_ hs' (by rw [he]; simp)
    intro x hx
    rcases List.mem_append.mp hx with hx | hx
    · exact hb x hx
    · simp only [List.mem_singleton] at hx
      rw [hx]; exact hl

/-- How the sections of more lines extend the sections of the first ones. -/
def Extends (hd : List SdpLine) (secs : List (Media × List SdpLine)) (hd2 : List SdpLine) (secs2 : List (Media × List SdpLine)) : Prop :=
  (secs = [] ∧ hd <+: hd2) ∨
  ∃ q m body body2 w, secs = q ++ [(m, body)] ∧ hd2 = hd ∧ secs2 = q ++ (m, body2) :: w ∧ body <+: body2

theorem snoc_cases {α : Type} (l : List α) : l = [] ∨ ∃ q x, l = q ++ [x] := by
  rcases List.eq_nil_or_concat l with h | ⟨q, x, h⟩
  · exact Or.inl h
  · exact Or.inr ⟨q, x, by rw [h, List.concat_eq_append]⟩

theorem snocInd {α : Type} {P : List α → Prop} (l : List α) (h1 : P []) (h2 : ∀ l x, P l → P (l ++ [x])) : P l := by
  rw [← List.reverse_reverse l]
  induction l.reverse with
  | nil => exact h1
  | cons x l ih => rw [List.reverse_cons]; exact h2 _ _ ih

theorem sections_extend (pre hd : List SdpLine) (secs : List (Media × List SdpLine)) (h : Sections pre hd secs) (post : List SdpLine) :
    ∃ hd2 secs2, Sections (pre ++ post) hd2 secs2 ∧ Extends hd secs hd2 secs2 := by
  induction post using snocInd with
  | h1 =>
    refine ⟨hd, secs, by simpa using h, ?_⟩
    rcases snoc_cases secs with rfl | ⟨q, ⟨m, body⟩, rfl⟩
    · exact Or.inl ⟨rfl, List.prefix_rfl⟩
    · exact Or.inr ⟨q, m, body, body, [], rfl, rfl, by simp, List.prefix_rfl⟩
  | h2 post l ih =>
    obtain ⟨hd2, secs2, h1, h2⟩ := ih
    rw [← List.append_assoc]
    cases hl : isMedia l with
    | true =>
      cases l with
      | media m =>
        refine ⟨hd2, secs2 ++ [(m, [])], sections_media h1 m, ?_⟩
        rcases h2 with ⟨rfl, h2⟩ | ⟨q, m', b, b2, w, rfl, rfl, rfl, h3⟩
        · exact Or.inl ⟨rfl, h2⟩
        · exact Or.inr ⟨q, m', b, b2, w ++ [(m, [])], rfl, rfl, by simp, h3⟩
      | _ => cases hl
    | false =>
      rcases snoc_cases secs2 with rfl | ⟨q2, ⟨m2, body2⟩, rfl⟩
      · obtain ⟨e1, e2⟩ := sections_head h1 l hl
        refine ⟨_, _, e2, ?_⟩
        rcases h2 with ⟨rfl, h2⟩ | ⟨q, m', b, b2, w, _, _, h3, _⟩
        · refine Or.inl ⟨rfl, ?_⟩
          rw [e1] at h2
          exact h2.trans (List.prefix_append _ _)
        · simp at h3
      · refine ⟨_, _, sections_body h1 l hl, ?_⟩
        rcases h2 with ⟨rfl, h2⟩ | ⟨q, m', b, b2, w, rfl, rfl, h3, h4⟩
        · exact Or.inl ⟨rfl, h2⟩
        · refine Or.inr ?_
          rcases snoc_cases w with rfl | ⟨w', x, rfl⟩
          · obtain ⟨rfl, e2⟩ := List.append_inj' h3 rfl
            simp only [List.cons.injEq, Prod.mk.injEq, and_true] at e2
            obtain ⟨rfl, rfl⟩ := e2
            exact ⟨q2, m2, b, body2 ++ [l], [], rfl, rfl, rfl, h4.trans (List.prefix_append _ _)⟩
          · rw [show q ++ (m', b2) :: (w' ++ [x]) = (q ++ (m', b2) :: w') ++ [x] by simp] at h3
            obtain ⟨rfl, e2⟩ := List.append_inj' h3 rfl
            exact ⟨q, m', b, b2, w' ++ [(m2, body2 ++ [l])], rfl, rfl, by simp, h4⟩

end Siphon.Sdp
