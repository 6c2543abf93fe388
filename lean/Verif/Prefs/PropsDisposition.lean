import Verif.Prefs.Lemmas
/-!
# Request-Disposition: reading and writing
-/
namespace Siphon.Prefs
open TextSpec HdrSpec Spec

theorem says_iff (p : Str) (w : String) (hw : lower w.toList = w.toList) : Says p w ↔ lower (trim p) = w.toList := by
  unfold Says
  constructor
  · rintro ⟨x, h1, h2⟩
    rw [strips_trim] at h1
    subst h1
    rw [sameName_iff] at h2
    unfold eqIgnoreCase at h2
    rw [beq_iff_eq, hw] at h2
    exact h2
  · intro h
    refine ⟨trim p, (strips_trim _ _).mpr rfl, ?_⟩
    rw [sameName_iff]
    unfold eqIgnoreCase
    rw [beq_iff_eq, hw, h]

/-- one directive sets the field of its word and no other -/
theorem directive_step (rd : Disposition) (p : Str) :
    (directive rd p).proxy = (if lower (trim p) = "proxy".toList then some true else if lower (trim p) = "redirect".toList then some false else rd.proxy) ∧
    (directive rd p).fork = (if lower (trim p) = "fork".toList then some true else if lower (trim p) = "no-fork".toList then some false else rd.fork) ∧
    (directive rd p).cancel = (if lower (trim p) = "cancel".toList then some true else if lower (trim p) = "no-cancel".toList then some false else rd.cancel) ∧
    (directive rd p).recurse = (if lower (trim p) = "recurse".toList then some true else if lower (trim p) = "no-recurse".toList then some false else rd.recurse) ∧
    (directive rd p).parallel = (if lower (trim p) = "parallel".toList then some true else if lower (trim p) = "sequential".toList then some false else rd.parallel) ∧
    (directive rd p).queue = (if lower (trim p) = "queue".toList then some true else if lower (trim p) = "no-queue".toList then some false else rd.queue) := by
  unfold directive
  generalize lower (trim p) = w
  by_cases h1 : w = "proxy".toList
  · subst h1; exact ⟨rfl, rfl, rfl, rfl, rfl, rfl⟩
  by_cases h2 : w = "redirect".toList
  · subst h2; exact ⟨rfl, rfl, rfl, rfl, rfl, rfl⟩
  by_cases h3 : w = "fork".toList
  · subst h3; exact ⟨rfl, rfl, rfl, rfl, rfl, rfl⟩
  by_cases h4 : w = "no-fork".toList
  · subst h4; exact ⟨rfl, rfl, rfl, rfl, rfl, rfl⟩
  by_cases h5 : w = "cancel".toList
  · subst h5; exact ⟨rfl, rfl, rfl, rfl, rfl, rfl⟩
  by_cases h6 : w = "no-cancel".toList
  · subst h6; exact ⟨rfl, rfl, rfl, rfl, rfl, rfl⟩
  by_cases h7 : w = "recurse".toList
  · subst h7; exact ⟨rfl, rfl, rfl, rfl, rfl, rfl⟩
  by_cases h8 : w = "no-recurse".toList
  · subst h8; exact ⟨rfl, rfl, rfl, rfl, rfl, rfl⟩
  by_cases h9 : w = "parallel".toList
  · subst h9; exact ⟨rfl, rfl, rfl, rfl, rfl, rfl⟩
  by_cases h10 : w = "sequential".toList
  · subst h10; exact ⟨rfl, rfl, rfl, rfl, rfl, rfl⟩
  by_cases h11 : w = "queue".toList
  · subst h11; exact ⟨rfl, rfl, rfl, rfl, rfl, rfl⟩
  by_cases h12 : w = "no-queue".toList
  · subst h12; exact ⟨rfl, rfl, rfl, rfl, rfl, rfl⟩
  simp only [if_neg h1, if_neg h2, if_neg h3, if_neg h4, if_neg h5, if_neg h6, if_neg h7, if_neg h8, if_neg h9, if_neg h10, if_neg h11, if_neg h12]
  exact ⟨trivial, trivial, trivial, trivial, trivial, trivial⟩

theorem fold_field (g : Disposition → Option Bool) (w1 w2 : String) (l1 : lower w1.toList = w1.toList) (l2 : lower w2.toList = w2.toList)
    (hne : w1.toList ≠ w2.toList)
    (hg : ∀ rd p, g (directive rd p) = if lower (trim p) = w1.toList then some true else if lower (trim p) = w2.toList then some false else g rd) :
    ∀ (ps : List Str) (rd : Disposition) (b : Bool), g (ps.foldl directive rd) = some b ↔
      Decides ps (w1, w2) b ∨ ((∀ p ∈ ps, ¬ Says p w1 ∧ ¬ Says p w2) ∧ g rd = some b)
  | [], rd, b => by
    simp only [List.foldl_nil, List.not_mem_nil, false_implies, implies_true, true_and]
    constructor
    · exact Or.inr
    · rintro (⟨pre, p, post, h, _⟩ | h)
      · cases pre <;> simp at h
      · exact h
  | p :: ps, rd, b => by
    rw [List.foldl_cons, fold_field g w1 w2 l1 l2 hne hg ps (directive rd p) b, hg]
    constructor
    · rintro (⟨pre, q, post, rfl, h1, h2⟩ | ⟨h1, h2⟩)
      · exact Or.inl ⟨p :: pre, q, post, rfl, h1, h2⟩
      · split at h2
        · rename_i hp
          simp only [Option.some.injEq] at h2
          subst h2
          exact Or.inl ⟨[], p, ps, rfl, (says_iff p w1 l1).mpr hp, h1⟩
        · rename_i hp
          split at h2
          · rename_i hp'
            simp only [Option.some.injEq] at h2
            subst h2
            exact Or.inl ⟨[], p, ps, rfl, (says_iff p w2 l2).mpr hp', h1⟩
          · rename_i hp'
            refine Or.inr ⟨?_, h2⟩
            intro q hq
            rcases List.mem_cons.mp hq with rfl | hq
            · rw [says_iff _ _ l1, says_iff _ _ l2]; exact ⟨hp, hp'⟩
            · exact h1 q hq
    · rintro (⟨pre, q, post, h, h1, h2⟩ | ⟨h1, h2⟩)
      · cases pre with
        | nil =>
          simp only [List.nil_append, List.cons.injEq] at h
          obtain ⟨rfl, rfl⟩ := h
          refine Or.inr ⟨h2, ?_⟩
          cases b with
          | true =>
            simp only [if_true] at h1
            rw [if_pos ((says_iff p w1 l1).mp h1)]
          | false =>
            simp only [Bool.false_eq_true, if_false] at h1
            have h1 := (says_iff p w2 l2).mp h1
            rw [if_neg (by rw [h1]; exact fun e => hne e.symm), if_pos h1]
        | cons p' pre =>
          simp only [List.cons_append, List.cons.injEq] at h
          obtain ⟨rfl, rfl⟩ := h
          exact Or.inl ⟨pre, q, post, rfl, h1, h2⟩
      · refine Or.inr ⟨fun q hq => h1 q (List.mem_cons_of_mem _ hq), ?_⟩
        have := h1 p (by simp)
        rw [says_iff _ _ l1, says_iff _ _ l2] at this
        rw [if_neg this.1, if_neg this.2, h2]

/-- the fields after all directives -/
theorem fold_fields (ps : List Str) (w : String × String) (x : Option Bool) (h : (w, x) ∈ words.zip (fields (ps.foldl directive .new))) (b : Bool) :
    x = some b ↔ Decides ps w b := by
  have none_of : ∀ P : Prop, (P ∧ (none : Option Bool) = some b) ↔ False := fun P => ⟨fun h => (by cases h.2), False.elim⟩
  simp only [words, fields, List.zip_cons_cons, List.zip_nil_left, List.mem_cons, List.not_mem_nil, or_false, Prod.mk.injEq] at h
  rcases h with ⟨rfl, rfl⟩ | ⟨rfl, rfl⟩ | ⟨rfl, rfl⟩ | ⟨rfl, rfl⟩ | ⟨rfl, rfl⟩ | ⟨rfl, rfl⟩
  · rw [fold_field (·.proxy) "proxy" "redirect" (by decide) (by decide) (by decide) (fun rd p => (directive_step rd p).1)]
    simp only [Disposition.new, none_of, or_false]
  · rw [fold_field (·.fork) "fork" "no-fork" (by decide) (by decide) (by decide) (fun rd p => (directive_step rd p).2.1)]
    simp only [Disposition.new, none_of, or_false]
  · rw [fold_field (·.cancel) "cancel" "no-cancel" (by decide) (by decide) (by decide) (fun rd p => (directive_step rd p).2.2.1)]
    simp only [Disposition.new, none_of, or_false]
  · rw [fold_field (·.recurse) "recurse" "no-recurse" (by decide) (by decide) (by decide) (fun rd p => (directive_step rd p).2.2.2.1)]
    simp only [Disposition.new, none_of, or_false]
  · rw [fold_field (·.parallel) "parallel" "sequential" (by decide) (by decide) (by decide) (fun rd p => (directive_step rd p).2.2.2.2.1)]
    simp only [Disposition.new, none_of, or_false]
  · rw [fold_field (·.queue) "queue" "no-queue" (by decide) (by decide) (by decide) (fun rd p => (directive_step rd p).2.2.2.2.2)]
    simp only [Disposition.new, none_of, or_false]

theorem new_iff (d : Disposition) : d ≠ .new ↔ ∃ x ∈ fields d, x ≠ none := by
  constructor
  · intro h
    apply Classical.byContradiction
    intro hn
    apply h
    have : ∀ x ∈ fields d, x = none := fun x hx => Classical.byContradiction (fun hh => hn ⟨x, hx, hh⟩)
    simp only [fields, List.mem_cons, List.not_mem_nil, or_false, forall_eq_or_imp, forall_eq] at this
    obtain ⟨a, b, c, e, f, g⟩ := d
    simp only at this
    obtain ⟨rfl, rfl, rfl, rfl, rfl, rfl⟩ := this
    rfl
  · rintro ⟨x, hx, hn⟩ rfl
    simp only [fields, Disposition.new, List.mem_cons, List.not_mem_nil, or_false, or_self] at hx
    exact hn hx

theorem opt_ext {x y : Option Bool} (h : ∀ b, x = some b ↔ y = some b) : x = y := by
  cases y with
  | none =>
    cases x with
    | none => rfl
    | some b => exact absurd ((h b).mp rfl) (by simp)
  | some b => exact (h b).mpr rfl

/-- **C133.** A Request-Disposition is read exactly as described: of each pair of words the last one decides, in any case and
with blanks around it; other words are ignored, but there must be one of the twelve. -/
theorem C133_parse (s : Str) (d : Disposition) : Disposition.parse s = some d ↔ DispositionText s d := by
  unfold Disposition.parse DispositionText
  cases hc : s.any isAsciiControl with
  | true =>
    simp only [if_true]
    obtain ⟨c, h1, h2⟩ := List.any_eq_true.mp hc
    exact ⟨fun h => (by cases h), fun h => absurd (h.1 c h1) (by rw [h2]; decide)⟩
  | false =>
    simp only [Bool.false_eq_true, if_false]
    have hc' : ∀ c ∈ s, isAsciiControl c = false := fun c h => by simpa using List.any_eq_false.mp hc c h
    have hp : Pieces ',' s (splitChar ',' s) := (pieces_iff _ _ _).mpr rfl
    constructor
    · intro h
      split at h
      · cases h
      · rename_i hn
        simp only [Option.some.injEq] at h
        subst h
        exact ⟨hc', (new_iff _).mp hn, _, hp, fun w x hw b => fold_fields _ w x hw b⟩
    · rintro ⟨_, hx, ps, hps, hall⟩
      rw [pieces_iff] at hps
      subst hps
      have hd : (splitChar ',' s).foldl directive .new = d := by
        have key : ∀ w x y, (w, x) ∈ words.zip (fields ((splitChar ',' s).foldl directive .new)) → (w, y) ∈ words.zip (fields d) → x = y := by
          intro w x y h1 h2
          exact opt_ext (fun b => by rw [fold_fields _ w x h1 b, hall w y h2 b])
        generalize (splitChar ',' s).foldl directive .new = e at key
        obtain ⟨a1, a2, a3, a4, a5, a6⟩ := d
        obtain ⟨b1, b2, b3, b4, b5, b6⟩ := e
        simp only [words, fields, List.zip_cons_cons, List.zip_nil_left] at key
        rw [key ("proxy", "redirect") b1 a1 (by simp) (by simp), key ("fork", "no-fork") b2 a2 (by simp) (by simp),
          key ("cancel", "no-cancel") b3 a3 (by simp) (by simp), key ("recurse", "no-recurse") b4 a4 (by simp) (by simp),
          key ("parallel", "sequential") b5 a5 (by simp) (by simp), key ("queue", "no-queue") b6 a6 (by simp) (by simp)]
      rw [hd, if_neg ((new_iff d).mpr hx)]

/-! ## Round trip -/

theorem directive_blank (rd : Disposition) (p : Str) : directive rd (' ' :: p) = directive rd p := by
  unfold directive
  rw [show trim (' ' :: p) = trim p from ?_]
  obtain ⟨a, b, h1, h2, h3, h4⟩ := (strips_trim p _).mpr rfl
  symm
  rw [← strips_trim]
  refine ⟨' ' :: a, b, ?_, ?_, h3, h4⟩
  · rw [List.cons_append, List.cons_append, ← h1]
  · intro c hc
    rcases List.mem_cons.mp hc with rfl | hc
    · decide
    · exact h2 c hc

theorem join_pieces : ∀ (t : Str) (l : List Str), (∀ x ∈ t :: l, ',' ∉ x) → Pieces ',' (joinCommaSpace (t :: l)) (t :: l.map (' ' :: ·)) := by
  intro t l
  induction l generalizing t with
  | nil => intro h; exact ⟨by simp, rfl, fun p hp => h p (by simpa using hp)⟩
  | cons u l ih =>
    intro h
    obtain ⟨_, h2, h3⟩ := ih u (fun x hx => h x (List.mem_cons_of_mem _ hx))
    refine ⟨by simp, ?_, ?_⟩
    · rw [joinCommaSpace, h2, List.map_cons, join_cons ',' t _ (by simp)]
      · cases l with
        | nil => rfl
        | cons v l => rw [List.map_cons, join_cons ',' u _ (by simp), join_cons ',' (' ' :: u) _ (by simp)]; rfl
      · simp
    · intro p hp
      simp only [List.map_cons, List.mem_cons] at hp
      rcases hp with rfl | rfl | hp
      · exact h _ (by simp)
      · simp only [List.mem_cons, not_or]; exact ⟨by decide, h u (by simp)⟩
      · exact h3 p (by simp only [List.mem_cons]; exact Or.inr hp)

theorem fold_blank (l : List Str) : ∀ rd, (l.map (' ' :: ·)).foldl directive rd = l.foldl directive rd := by
  induction l with
  | nil => intro rd; rfl
  | cons t l ih => intro rd; rw [List.map_cons, List.foldl_cons, List.foldl_cons, directive_blank, ih]

/-- **C133.** What is written is read again as the same directives. -/
theorem C133_roundtrip (d : Disposition) (h : d ≠ .new) : Disposition.parse d.show = some d := by
  obtain ⟨a, b, c, e, f, g⟩ := d
  unfold Disposition.show
  simp only
  generalize hL : word "proxy" "redirect" a ++ word "fork" "no-fork" b ++ word "cancel" "no-cancel" c ++
    word "recurse" "no-recurse" e ++ word "parallel" "sequential" f ++ word "queue" "no-queue" g = L
  have hfold : L.foldl directive .new = ⟨a, b, c, e, f, g⟩ := by
    rw [← hL]
    simp only [List.foldl_append]
    have s1 : (word "proxy" "redirect" a).foldl directive .new = ⟨a, none, none, none, none, none⟩ := by
      rcases a with _ | _ | _ <;> rfl
    have s2 : (word "fork" "no-fork" b).foldl directive ⟨a, none, none, none, none, none⟩ = ⟨a, b, none, none, none, none⟩ := by
      rcases b with _ | _ | _ <;> rfl
    have s3 : (word "cancel" "no-cancel" c).foldl directive ⟨a, b, none, none, none, none⟩ = ⟨a, b, c, none, none, none⟩ := by
      rcases c with _ | _ | _ <;> rfl
    have s4 : (word "recurse" "no-recurse" e).foldl directive ⟨a, b, c, none, none, none⟩ = ⟨a, b, c, e, none, none⟩ := by
      rcases e with _ | _ | _ <;> rfl
    have s5 : (word "parallel" "sequential" f).foldl directive ⟨a, b, c, e, none, none⟩ = ⟨a, b, c, e, f, none⟩ := by
      rcases f with _ | _ | _ <;> rfl
    have s6 : (word "queue" "no-queue" g).foldl directive ⟨a, b, c, e, f, none⟩ = ⟨a, b, c, e, f, g⟩ := by
      rcases g with _ | _ | _ <;> rfl
    rw [s1, s2, s3, s4, s5, s6]
  have hgood : ∀ x ∈ L, (∀ k ∈ x, k ≠ ',' ∧ isAsciiControl k = false) := by
    have hw : ∀ (y n : String) (o : Option Bool), (∀ k ∈ y.toList, k ≠ ',' ∧ isAsciiControl k = false) →
        (∀ k ∈ n.toList, k ≠ ',' ∧ isAsciiControl k = false) → ∀ x ∈ word y n o, ∀ k ∈ x, k ≠ ',' ∧ isAsciiControl k = false := by
      intro y n o hy hn x hx
      rcases o with _ | _ | _ <;> simp only [word, List.mem_cons, List.not_mem_nil, or_false] at hx
      · subst hx; exact hn
      · subst hx; exact hy
    rw [← hL]
    intro x hx
    simp only [List.mem_append] at hx
    rcases hx with ((((hx | hx) | hx) | hx) | hx) | hx
    all_goals exact hw _ _ _ (by decide) (by decide) x hx
  cases L with
  | nil => exact absurd hfold.symm h
  | cons t l =>
    have hp := join_pieces t l (fun x hx hk => (hgood x hx ',' hk).1 rfl)
    have hsplit := (pieces_iff _ _ _).mp hp
    unfold Disposition.parse
    have hc : (joinCommaSpace (t :: l)).any isAsciiControl = false := by
      rw [List.any_eq_false]
      have : ∀ (l : List Str), (∀ x ∈ l, ∀ k ∈ x, k ≠ ',' ∧ isAsciiControl k = false) → ∀ k ∈ joinCommaSpace l, ¬ isAsciiControl k = true := by
        intro l
        induction l with
        | nil => intro _ k hk; cases hk
        | cons t l ih =>
          intro hg k hk
          cases l with
          | nil => rw [(hg t (by simp) k hk).2]; decide
          | cons u l =>
            rw [joinCommaSpace] at hk
            · simp only [List.mem_append, List.mem_cons] at hk
              rcases hk with hk | rfl | rfl | hk
              · rw [(hg t (by simp) k hk).2]; decide
              · decide
              · decide
              · exact ih (fun x hx => hg x (List.mem_cons_of_mem _ hx)) k hk
            · simp
      exact this _ hgood
    rw [hc, ← hsplit]
    simp only [Bool.false_eq_true, if_false]
    rw [List.foldl_cons, fold_blank, ← List.foldl_cons (f := directive), hfold, if_neg h]

/-- A text with a repeated word, another word and blanks. -/
example : Disposition.parse "Fork , x, no-CANCEL,no-fork".toList = some ⟨none, some false, some false, none, none, none⟩ := by
  decide +kernel

example : Disposition.show ⟨some true, none, none, some false, none, some true⟩ = "proxy, no-recurse, queue".toList := by
  decide +kernel

end Siphon.Prefs
