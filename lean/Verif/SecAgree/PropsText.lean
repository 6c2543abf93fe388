import Verif.SecAgree.PropsChoice
set_option linter.unusedSimpArgs false
/-!
# C136: security headers are read as they are written
-/
namespace Siphon.SecAgree
open TextSpec HdrSpec Spec

/-! ## Pieces between separators outside quoted strings -/

/-- The two flags of the readers. -/
def flags : Quote → Bool × Bool
  | .outside => (false, false)
  | .inside => (true, false)
  | .escaped => (true, true)

theorem after_snoc (s : Str) (c : Char) : after (s ++ [c]) = (after s).next c := by simp [after]

theorem split_step (sep : Char) (h1 : sep ≠ '"') (h2 : sep ≠ '\\') (ch : Char) (t cur : Str) (q : Quote) :
    splitUnquoted sep (ch :: t) cur (flags q).1 (flags q).2 =
      if q = .outside ∧ ch = sep then cur :: splitUnquoted sep t [] (flags .outside).1 (flags .outside).2
      else splitUnquoted sep t (cur ++ [ch]) (flags (q.next ch)).1 (flags (q.next ch)).2 := by
  rw [splitUnquoted]
  cases q with
  | outside =>
    simp only [flags, Bool.false_eq_true, if_false, Bool.false_and, Quote.next, true_and, Bool.not_false, Bool.and_true, beq_iff_eq]
    by_cases hq : ch = '"'
    · subst hq
      rw [if_pos rfl, if_neg (fun h => h1 h.symm), if_pos rfl]
    · rw [if_neg hq, if_neg hq]
  | inside =>
    simp only [flags, Bool.false_eq_true, if_false, Bool.true_and, Quote.next, false_and, Bool.not_true, Bool.and_false, beq_iff_eq,
      reduceCtorEq]
    by_cases hb : ch = '\\'
    · subst hb
      simp
    · rw [if_neg hb]
      by_cases hq : ch = '"'
      · subst hq; simp
      · rw [if_neg hq, if_neg hq, if_neg hb]
  | escaped => simp [flags, Quote.next]

theorem unbroken_snoc {sep : Char} {cur : Str} {ch : Char} (h : Unbroken sep cur) (hc : ¬ (after cur = .outside ∧ ch = sep)) :
    Unbroken sep (cur ++ [ch]) := by
  intro a b hab
  rcases List.append_eq_append_iff.1 hab with ⟨x, hx, hy⟩ | ⟨x, hx, hy⟩
  · cases x with
    | nil =>
      simp at hy hx
      intro ha
      exact hc ⟨by rw [← hx]; exact ha, hy.1⟩
    | cons y ys =>
      simp at hy
  · cases x with
    | nil =>
      simp at hy hx
      intro ha
      exact hc ⟨by rw [hx]; exact ha, hy.1.symm⟩
    | cons y ys =>
      simp at hy
      exact h a ys (by rw [hx, hy.1])

theorem unbroken_nil (sep : Char) : Unbroken sep [] := by intro a b h; simp at h

theorem split_correct (sep : Char) (h1 : sep ≠ '"') (h2 : sep ≠ '\\') (s cur : Str) (hc : Unbroken sep cur) :
    QPieces sep (cur ++ s) (splitUnquoted sep s cur (flags (after cur)).1 (flags (after cur)).2) := by
  induction s generalizing cur with
  | nil => rw [List.append_nil, splitUnquoted]; exact .last hc
  | cons ch t ih =>
    rw [split_step sep h1 h2]
    by_cases hq : after cur = .outside ∧ ch = sep
    · rw [if_pos hq]
      obtain ⟨hq, rfl⟩ := hq
      exact .more ⟨hc, hq⟩ (ih [] (unbroken_nil _))
    · rw [if_neg hq, ← after_snoc]
      have := ih (cur ++ [ch]) (unbroken_snoc hc hq)
      simpa using this

theorem pieces_unique {sep : Char} {s : Str} {ps ps' : List Str} (h : QPieces sep s ps) (h' : QPieces sep s ps') : ps = ps' := by
  induction h generalizing ps' with
  | last hp =>
    cases h' with
    | last _ => rfl
    | more hu _ => exact absurd hu.2 (hp _ _ rfl)
  | @more p rest ps hu hr ih =>
    generalize hs : p ++ sep :: rest = s at h'
    cases h' with
    | last hp => exact absurd hu.2 (hp _ _ hs.symm)
    | @more p' rest' ps' hu' hr' =>
      rcases List.append_eq_append_iff.1 hs with ⟨x, hx, hy⟩ | ⟨x, hx, hy⟩
      · cases x with
        | nil => simp at hx hy; subst hx; subst hy; rw [ih hr']
        | cons y ys =>
          simp at hy
          exact absurd hu.2 (hu'.1 p ys (by rw [hx, hy.1]))
      · cases x with
        | nil => simp at hx hy; subst hx; subst hy; rw [ih hr']
        | cons y ys =>
          simp at hy
          exact absurd hu'.2 (hu.1 p' ys (by rw [hx, hy.1]))

theorem qpieces_iff (sep : Char) (h1 : sep ≠ '"') (h2 : sep ≠ '\\') (s : Str) (ps : List Str) :
    QPieces sep s ps ↔ splitUnquoted sep s [] false false = ps := by
  have := split_correct sep h1 h2 s [] (unbroken_nil _)
  exact ⟨fun h => pieces_unique this h, fun h => h ▸ this⟩

theorem once_step (sep : Char) (h1 : sep ≠ '"') (h2 : sep ≠ '\\') (ch : Char) (t : Str) (q : Quote) :
    splitOnceUnquoted sep (ch :: t) (flags q).1 (flags q).2 =
      if q = .outside ∧ ch = sep then some ([], t)
      else (splitOnceUnquoted sep t (flags (q.next ch)).1 (flags (q.next ch)).2).map (fun p => (ch :: p.1, p.2)) := by
  rw [splitOnceUnquoted]
  cases q with
  | outside =>
    simp only [flags, Bool.false_eq_true, if_false, Bool.false_and, Quote.next, true_and, Bool.not_false, Bool.and_true, beq_iff_eq]
    by_cases hq : ch = '"'
    · subst hq
      rw [if_pos rfl, if_neg (fun h => h1 h.symm), if_pos rfl]
    · rw [if_neg hq, if_neg hq]
  | inside =>
    simp only [flags, Bool.false_eq_true, if_false, Bool.true_and, Quote.next, false_and, Bool.not_true, Bool.and_false, beq_iff_eq,
      reduceCtorEq]
    by_cases hb : ch = '\\'
    · subst hb
      simp
    · rw [if_neg hb]
      by_cases hq : ch = '"'
      · subst hq; simp
      · rw [if_neg hq, if_neg hq, if_neg hb]
  | escaped => simp [flags, Quote.next]

theorem once_some (sep : Char) (h1 : sep ≠ '"') (h2 : sep ≠ '\\') (s cur a b : Str) :
    splitOnceUnquoted sep s (flags (after cur)).1 (flags (after cur)).2 = some (a, b) ↔
      s = a ++ sep :: b ∧ after (cur ++ a) = .outside ∧ ∀ x y, a = x ++ sep :: y → after (cur ++ x) ≠ .outside := by
  induction s generalizing cur a with
  | nil => simp [splitOnceUnquoted]
  | cons ch t ih =>
    rw [once_step sep h1 h2]
    by_cases hq : after cur = .outside ∧ ch = sep
    · rw [if_pos hq]
      obtain ⟨hq, rfl⟩ := hq
      constructor
      · intro h; cases h
        exact ⟨rfl, by simpa using hq, by intro x y h; simp at h⟩
      · rintro ⟨h3, h4, h5⟩
        cases a with
        | nil => simp at h3; rw [h3]
        | cons x a =>
          simp at h3
          exact absurd (by simpa using hq) (h5 [] a (by rw [h3.1]; rfl))
    · rw [if_neg hq, ← after_snoc, Option.map_eq_some_iff]
      constructor
      · rintro ⟨⟨a', b'⟩, h3, h4⟩
        cases h4
        obtain ⟨h5, h6, h7⟩ := (ih (cur ++ [ch]) a').1 h3
        refine ⟨by rw [h5]; rfl, by simpa using h6, ?_⟩
        intro x y hxy
        cases x with
        | nil =>
          simp at hxy
          intro ha
          exact hq ⟨by simpa using ha, hxy.1⟩
        | cons z x =>
          simp at hxy
          have := h7 x y hxy.2
          rw [← hxy.1]
          simpa using this
      · rintro ⟨h3, h4, h5⟩
        cases a with
        | nil =>
          simp at h3 h4
          exact absurd ⟨h4, h3.1⟩ hq
        | cons x a =>
          simp at h3
          obtain ⟨rfl, h3⟩ := h3
          refine ⟨(a, b), (ih (cur ++ [ch]) a).2 ⟨h3, by simpa using h4, fun x y hxy => ?_⟩, rfl⟩
          have := h5 (ch :: x) y (by rw [hxy]; rfl)
          simpa using this

theorem upTo_iff (sep : Char) (h1 : sep ≠ '"') (h2 : sep ≠ '\\') (s a b : Str) :
    splitOnceUnquoted sep s false false = some (a, b) ↔ s = a ++ sep :: b ∧ UpTo sep a := by
  have := once_some sep h1 h2 s [] a b
  simp only [List.nil_append] at this
  exact this.trans ⟨fun ⟨a, b, c⟩ => ⟨a, c, b⟩, fun ⟨a, c, b⟩ => ⟨a, b, c⟩⟩

/-- A text that is broken somewhere has a first such place. -/
theorem first_break (sep : Char) (s a b : Str) (h : s = a ++ sep :: b) (ha : after a = .outside) :
    ∃ a' b', s = a' ++ sep :: b' ∧ UpTo sep a' := by
  by_cases hu : Unbroken sep a
  · exact ⟨a, b, h, hu, ha⟩
  · have : ∃ x y, a = x ++ sep :: y ∧ after x = .outside := by
      apply Classical.byContradiction
      intro hn
      exact hu (fun x y hxy hx => hn ⟨x, y, hxy, hx⟩)
    obtain ⟨x, y, hxy, hx⟩ := this
    exact first_break sep s x (y ++ sep :: b) (by rw [h, hxy]; simp) hx
termination_by a.length
decreasing_by rw [hxy]; simp

theorem unbroken_iff (sep : Char) (h1 : sep ≠ '"') (h2 : sep ≠ '\\') (s : Str) :
    splitOnceUnquoted sep s false false = none ↔ Unbroken sep s := by
  constructor
  · intro h a b hab ha
    obtain ⟨a', b', h3, h4⟩ := first_break sep s a b hab ha
    rw [(upTo_iff sep h1 h2 s a' b').2 ⟨h3, h4⟩] at h
    cases h
  · intro h
    cases hs : splitOnceUnquoted sep s false false with
    | none => rfl
    | some p =>
      obtain ⟨h3, h4⟩ := (upTo_iff sep h1 h2 s p.1 p.2).1 hs
      exact absurd h4.2 (h _ _ h3)

/-! ## Mechanisms -/

theorem lowers_iff (n : Str) (w : String) (hw : lower w.toList = w.toList) : Offer.lowers n w = true ↔ IsWord n w := by
  unfold Offer.lowers IsWord
  rw [sameName_iff, beq_iff_eq]
  unfold eqIgnoreCase
  rw [beq_iff_eq, hw]
  have : n.map Offer.lowerU = lower (n.map (fun c => if c = '\u212A' then 'k' else c)) := by
    unfold lower
    rw [List.map_map]
    apply List.map_congr_left
    intro c _
    unfold Offer.lowerU
    simp only [Function.comp]
    split
    · decide
    · rfl
  rw [this]

theorem isWord_eq {n : Str} {w w' : String} (h : IsWord n w) (h' : IsWord n w') : lower w.toList = lower w'.toList := by
  unfold IsWord at *
  rw [sameName_iff] at *
  unfold eqIgnoreCase at *
  rw [beq_iff_eq] at *
  rw [← h, ← h']

/-- **C136.** A name is read as one of the four mechanisms in any case, and otherwise kept as it is. -/
theorem C136_mechanism (n : Str) (m : Mechanism) : Mechanism.parse n = some m ↔ Names n m := by
  have l1 := lowers_iff n "tls" (by decide +kernel)
  have l2 := lowers_iff n "digest" (by decide +kernel)
  have l3 := lowers_iff n "ipsec-ike" (by decide +kernel)
  have l4 := lowers_iff n "ipsec-man" (by decide +kernel)
  have hv := validMechanism_iff n
  unfold Mechanism.parse
  constructor
  · intro h
    by_cases hval : validMechanism n = true
    case neg => rw [if_pos (by simp [hval])] at h; cases h
    rw [if_neg (by simp [hval])] at h
    by_cases a1 : Offer.lowers n "tls" = true
    · rw [if_pos a1] at h; cases h; exact .tls (hv.1 hval) (l1.1 a1)
    rw [if_neg a1] at h
    by_cases a2 : Offer.lowers n "digest" = true
    · rw [if_pos a2] at h; cases h; exact .digest (hv.1 hval) (l2.1 a2)
    rw [if_neg a2] at h
    by_cases a3 : Offer.lowers n "ipsec-ike" = true
    · rw [if_pos a3] at h; cases h; exact .ike (hv.1 hval) (l3.1 a3)
    rw [if_neg a3] at h
    by_cases a4 : Offer.lowers n "ipsec-man" = true
    · rw [if_pos a4] at h; cases h; exact .man (hv.1 hval) (l4.1 a4)
    rw [if_neg a4] at h
    cases h
    exact .other (hv.1 hval) (fun h => a1 (l1.2 h)) (fun h => a2 (l2.2 h)) (fun h => a3 (l3.2 h)) (fun h => a4 (l4.2 h))
  · intro h
    cases h with
    | tls h1 h2 => rw [hv.2 h1, l1.2 h2]; rfl
    | digest h1 h2 =>
      rw [hv.2 h1, if_neg (by simp), if_neg (fun h => absurd (isWord_eq (l1.1 h) h2) (by decide +kernel)), l2.2 h2, if_pos rfl]
    | ike h1 h2 =>
      rw [hv.2 h1, if_neg (by simp), if_neg (fun h => absurd (isWord_eq (l1.1 h) h2) (by decide +kernel)),
        if_neg (fun h => absurd (isWord_eq (l2.1 h) h2) (by decide +kernel)), l3.2 h2, if_pos rfl]
    | man h1 h2 =>
      rw [hv.2 h1, if_neg (by simp), if_neg (fun h => absurd (isWord_eq (l1.1 h) h2) (by decide +kernel)),
        if_neg (fun h => absurd (isWord_eq (l2.1 h) h2) (by decide +kernel)),
        if_neg (fun h => absurd (isWord_eq (l3.1 h) h2) (by decide +kernel)), l4.2 h2, if_pos rfl]
    | other h1 n1 n2 n3 n4 =>
      rw [hv.2 h1, if_neg (by simp), if_neg (by rw [l1]; exact n1), if_neg (by rw [l2]; exact n2), if_neg (by rw [l3]; exact n3),
        if_neg (by rw [l4]; exact n4)]

example : Names "TLS".toList .tls := (C136_mechanism _ _).1 (by decide +kernel)
example : Names "ipsec-3gpp".toList (.other "ipsec-3gpp".toList) := (C136_mechanism _ _).1 (by decide +kernel)

/-! ## Parameters -/

/-- What the reader makes of one parameter: `none` is an error, `some none` nothing. -/
def itemOf (F : Floats) (p : Str) : Option (Option (Str × Option Str)) :=
  if (trim p).isEmpty then some none
  else
    match splitOnceUnquoted '=' (trim p) false false with
    | some (k, v) =>
      if eqIgnoreCase (trim k) ['q'] = true ∧ (parseQ F (trim v)).isSome = false then some none
      else if validName (trim k) && validValue (trim v) then some (some (trim k, some (trim v))) else none
    | none => if validName (trim p) then some (some (trim p, none)) else none

theorem read_step (F : Floats) (p : Str) (ps : List Str) (e : Entry) :
    readParams F (p :: ps) e =
      match itemOf F p with
      | none => none
      | some none => readParams F ps e
      | some (some x) => if e.params.length ≥ 20 then none else readParams F ps ⟨e.mech, e.params.insert x.1 x.2⟩ := by
  have hset : ∀ k v, e.setParam k v =
      if validName k && v.all validValue then
        if e.params.length ≥ 20 then none else some ⟨e.mech, e.params.insert k v⟩
      else none := by
    intro k v
    unfold Entry.setParam MAX_PARAMS_PER_ENTRY
    by_cases h1 : e.params.length ≥ 20
    · simp [h1]
    · rw [if_neg h1, if_neg h1]
      cases validName k <;> cases v.all validValue <;> simp
  rw [readParams, itemOf]
  by_cases h1 : (trim p).isEmpty = true
  · rw [if_pos h1, if_pos h1]
  · rw [if_neg h1, if_neg h1]
    cases hs : splitOnceUnquoted '=' (trim p) false false with
    | none =>
      simp only [hset, Option.all_none, Bool.and_true]
      cases validName (trim p) with
      | false => rfl
      | true =>
        simp only [if_true]
        by_cases h : e.params.length ≥ 20
        · rw [if_pos h, if_pos h]
        · rw [if_neg h, if_neg h]
    | some kv =>
      obtain ⟨k, v⟩ := kv
      simp only [hset, Option.all_some]
      rcases Bool.eq_false_or_eq_true (eqIgnoreCase (trim k) ['q']) with h2 | h2 <;>
        rcases Bool.eq_false_or_eq_true (parseQ F (trim v)).isSome with h3 | h3 <;>
        rcases Bool.eq_false_or_eq_true (validName (trim k)) with h4 | h4 <;>
        rcases Bool.eq_false_or_eq_true (validValue (trim v)) with h5 | h5 <;>
        by_cases hl : e.params.length ≥ 20 <;> simp [h2, h3, h4, h5, hl]

theorem item_iff (F : Floats) (p : Str) (x : Option (Str × Option Str)) : Item F p x ↔ itemOf F p = some x := by
  have e1 : ('=' : Char) ≠ '"' := by decide
  have e2 : ('=' : Char) ≠ '\\' := by decide
  unfold itemOf
  constructor
  · intro h
    cases h with
    | blank h => rw [strips_trim] at h; rw [← h]; rfl
    | flag h1 h2 h3 h4 =>
      rw [strips_trim] at h1; subst h1
      rw [if_neg (by rw [List.isEmpty_iff]; exact h2), (unbroken_iff '=' e1 e2 _).2 h3]
      simp only []
      rw [if_pos ((validName_iff _).2 h4)]
    | value h1 h2 h3 h4 h5 h6 h7 =>
      rw [strips_trim] at h1 h3 h4; subst h3; subst h4
      rw [← h1, if_neg (by simp), (upTo_iff '=' e1 e2 _ _ _).2 ⟨rfl, h2⟩]
      simp only []
      rw [if_neg, (validName_iff _).2 h5, (validValue_iff _).2 h6]
      · rfl
      · rintro ⟨ha, hb⟩
        obtain ⟨q, hq⟩ := h7 ((sameName_iff _ _).2 ha)
        rw [(parseQ_iff F _ q).2 hq] at hb; cases hb
    | badQ h1 h2 h3 h4 h5 h6 =>
      rw [strips_trim] at h1 h3 h4; subst h3; subst h4
      rw [← h1, if_neg (by simp), (upTo_iff '=' e1 e2 _ _ _).2 ⟨rfl, h2⟩]
      simp only []
      rw [if_pos ⟨(sameName_iff _ _).1 h5, by rw [(parseQ_none F _).2 h6]; rfl⟩]
  · intro h
    by_cases hb : (trim p).isEmpty = true
    · rw [if_pos hb] at h
      cases h
      exact .blank ((strips_trim _ _).2 (List.isEmpty_iff.1 hb).symm)
    · rw [if_neg hb] at h
      rw [List.isEmpty_iff] at hb
      cases hs : splitOnceUnquoted '=' (trim p) false false with
      | none =>
        rw [hs] at h
        simp only [Option.ite_none_right_eq_some] at h
        obtain ⟨h1, h2⟩ := h
        cases h2
        exact .flag ((strips_trim _ _).2 rfl) hb ((unbroken_iff '=' e1 e2 _).1 hs) ((validName_iff _).1 h1)
      | some kv =>
        obtain ⟨k, v⟩ := kv
        rw [hs] at h
        obtain ⟨h1, h2⟩ := (upTo_iff '=' e1 e2 _ _ _).1 hs
        simp only [] at h
        split at h
        · rename_i hq
          cases h
          refine .badQ ((strips_trim _ _).2 h1.symm) h2 ((strips_trim _ _).2 rfl) ((strips_trim _ _).2 rfl) ((sameName_iff _ _).2 hq.1) ?_
          rw [← parseQ_none]
          cases hp : parseQ F (trim v) with
          | none => rfl
          | some q => rw [hp] at hq; cases hq.2
        · rename_i hq
          simp only [Option.ite_none_right_eq_some, Bool.and_eq_true] at h
          obtain ⟨⟨h3, h4⟩, h5⟩ := h
          cases h5
          refine .value ((strips_trim _ _).2 h1.symm) h2 ((strips_trim _ _).2 rfl) ((strips_trim _ _).2 rfl)
            ((validName_iff _).1 h3) ((validValue_iff _).1 h4) (fun hn => ?_)
          cases hp : parseQ F (trim v) with
          | none => exact absurd ⟨(sameName_iff _ _).1 hn, by rw [hp]; rfl⟩ hq
          | some q => exact ⟨q, (parseQ_iff F _ q).1 hp⟩

/-- The parameters after a list of settings. -/
def putAll (m : BMap (Option Str)) (l : List (Str × Option Str)) : BMap (Option Str) := l.foldl (fun m x => m.insert x.1 x.2) m

theorem readParams_iff (F : Floats) (ps : List Str) (e e' : Entry) :
    readParams F ps e = some e' ↔ ∃ l, Items F ps l ∧
      (∀ pre x post, l = pre ++ x :: post → (putAll e.params pre).length < 20) ∧ e' = ⟨e.mech, putAll e.params l⟩ := by
  induction ps generalizing e with
  | nil =>
    rw [readParams]
    constructor
    · intro h; cases h
      exact ⟨[], .nil, by intro pre x post h; simp at h, rfl⟩
    · rintro ⟨l, h1, _, rfl⟩
      cases h1; rfl
  | cons p ps ih =>
    rw [read_step]
    cases hi : itemOf F p with
    | none =>
      refine ⟨nofun, ?_⟩
      rintro ⟨l, h1, _⟩
      cases h1 with
      | none h _ => rw [item_iff, hi] at h; cases h
      | some h _ => rw [item_iff, hi] at h; cases h
    | some o =>
      cases o with
      | none =>
        simp only []
        rw [ih]
        constructor
        · rintro ⟨l, h1, h2⟩
          exact ⟨l, .none ((item_iff F p none).2 hi) h1, h2⟩
        · rintro ⟨l, h1, h2⟩
          cases h1 with
          | none _ h => exact ⟨l, h, h2⟩
          | some h _ => rw [item_iff, hi] at h; cases h
      | some x =>
        simp only []
        constructor
        · intro h
          split at h
          · cases h
          · rename_i hl
            obtain ⟨l, h1, h2, rfl⟩ := (ih _).1 h
            refine ⟨x :: l, .some ((item_iff F p _).2 hi) h1, ?_, rfl⟩
            intro pre y post hy
            cases pre with
            | nil => show e.params.length < 20; omega
            | cons z pre =>
              simp at hy
              obtain ⟨rfl, hy⟩ := hy
              exact h2 pre y post hy
        · rintro ⟨l, h1, h2, rfl⟩
          cases h1 with
          | none h _ => rw [item_iff, hi] at h; cases h
          | @some _ y _ l h hr =>
            rw [item_iff, hi] at h
            cases h
            have : e.params.length < 20 := h2 [] x l rfl
            rw [if_neg (by omega)]
            exact (ih _).2 ⟨l, hr, fun pre z post hz => h2 (x :: pre) z post (by rw [hz]; rfl), rfl⟩

theorem putAll_sorted (l : List (Str × Option Str)) : ∀ m : BMap (Option Str), UriP.Sorted m → UriP.Sorted (putAll m l) := by
  induction l with
  | nil => intro m h; exact h
  | cons x l ih => intro m h; exact ih _ (UriP.sorted_insert _ _ h)

theorem mem_putAll (l : List (Str × Option Str)) (k : Str) (v : Option Str) : ∀ m : BMap (Option Str), UriP.Sorted m →
    ((k, v) ∈ putAll m l ↔ LastSet l k v ∨ ((∀ w, (k, w) ∉ l) ∧ (k, v) ∈ m)) := by
  induction l with
  | nil =>
    intro m _
    show (k, v) ∈ m ↔ _
    constructor
    · intro h; exact .inr ⟨by simp, h⟩
    · rintro (⟨pre, post, h, _⟩ | ⟨_, h⟩)
      · simp at h
      · exact h
  | cons x l ih =>
    intro m hm
    show (k, v) ∈ putAll (m.insert x.1 x.2) l ↔ _
    rw [ih _ (UriP.sorted_insert _ _ hm), UriP.mem_insert_iff hm]
    constructor
    · rintro (⟨pre, post, h1, h2⟩ | ⟨h1, ⟨h2, h3⟩ | ⟨h2, h3⟩⟩)
      · exact .inl ⟨x :: pre, post, by rw [h1]; rfl, h2⟩
      · exact .inl ⟨[], l, by rw [h2, h3]; rfl, h1⟩
      · refine .inr ⟨fun w hw => ?_, h3⟩
        rcases List.mem_cons.1 hw with h | h
        · exact h2 (by rw [← h])
        · exact h1 w h
    · rintro (⟨pre, post, h1, h2⟩ | ⟨h1, h2⟩)
      · cases pre with
        | nil => simp at h1; refine .inr ⟨by rw [h1.2]; exact h2, .inl ?_⟩; rw [h1.1]; exact ⟨rfl, rfl⟩
        | cons y pre => simp at h1; exact .inl ⟨pre, post, h1.2, h2⟩
      · refine .inr ⟨fun w hw => h1 w (List.mem_cons_of_mem _ hw), .inr ⟨fun h => h1 x.2 ?_, h2⟩⟩
        rw [h]; exact List.mem_cons_self

/-- Some setting of a name is the last. -/
theorem lastSet_exists (l : List (Str × Option Str)) (k : Str) (v : Option Str) (h : (k, v) ∈ l) : ∃ w, LastSet l k w := by
  induction l generalizing v with
  | nil => cases h
  | cons x l ih =>
    by_cases hl : ∃ w, (k, w) ∈ l
    · obtain ⟨w, hw⟩ := hl
      obtain ⟨w, pre, post, h1, h2⟩ := ih w hw
      exact ⟨w, x :: pre, post, by rw [h1]; rfl, h2⟩
    · rcases List.mem_cons.1 h with rfl | h
      · exact ⟨v, [], l, rfl, fun w hw => hl ⟨w, hw⟩⟩
      · exact absurd ⟨v, h⟩ hl

theorem keys_putAll (l : List (Str × Option Str)) (k : Str) :
    k ∈ (putAll [] l).map (·.1) ↔ ∃ v, (k, v) ∈ l := by
  have hs : UriP.Sorted ([] : BMap (Option Str)) := .nil
  rw [List.mem_map]
  constructor
  · rintro ⟨⟨k', v⟩, h, rfl⟩
    rcases (mem_putAll l k' v [] hs).1 h with ⟨pre, post, h1, _⟩ | ⟨_, h⟩
    · exact ⟨v, by rw [h1]; simp⟩
    · cases h
  · rintro ⟨v, h⟩
    obtain ⟨w, hw⟩ := lastSet_exists l k v h
    exact ⟨(k, w), (mem_putAll l k w [] hs).2 (.inl hw), rfl⟩

theorem keys_nodup {m : BMap (Option Str)} (h : UriP.Sorted m) : (m.map (·.1)).Nodup := by
  rw [← ordered_iff] at h
  unfold List.Nodup
  rw [List.pairwise_map]
  exact h.imp (fun {a b} hab he => by rw [he] at hab; exact absurd hab (by simp))

theorem length_le (l m : List Str) (hn : l.Nodup) (h : ∀ x ∈ l, x ∈ m) : l.length ≤ m.length := by
  induction l generalizing m with
  | nil => simp
  | cons x l ih =>
    rw [List.nodup_cons] at hn
    have := ih (m.erase x) hn.2 (fun y hy => (List.mem_erase_of_ne (fun e : y = x => hn.1 (e ▸ hy))).2 (h y (List.mem_cons_of_mem _ hy)))
    have hx := h x List.mem_cons_self
    rw [List.length_erase_of_mem hx] at this
    have := List.length_pos_of_mem hx
    simp only [List.length_cons]
    omega

theorem room_iff (l : List (Str × Option Str)) : Room l ↔ (putAll [] l).length < 20 := by
  have hs : UriP.Sorted (putAll [] l) := putAll_sorted l [] .nil
  constructor
  · intro h
    have := h _ (keys_nodup hs) (fun k hk => (keys_putAll l k).1 hk)
    simpa using this
  · intro h ks hn hk
    have := length_le ks _ hn (fun k hk' => (keys_putAll l k).2 (hk k hk'))
    simp only [List.length_map] at this
    omega

/-- **C136.** An entry is read exactly when its text is one, and then as what the text says. -/
theorem C136_entry (F : Floats) (s : Str) (e : Entry) : parseEntry F s = some e ↔ EntryText F s e := by
  have e1 : (';' : Char) ≠ '"' := by decide
  have e2 : (';' : Char) ≠ '\\' := by decide
  unfold parseEntry EntryText
  constructor
  · intro h
    cases hsp : splitUnquoted ';' s [] false false with
    | nil => rw [hsp] at h; cases h
    | cons m ps =>
      rw [hsp] at h
      simp only [] at h
      split at h
      · cases h
      · cases hm : Mechanism.parse (trim m) with
        | none => rw [hm] at h; cases h
        | some mech =>
          rw [hm] at h
          obtain ⟨l, h1, h2, rfl⟩ := (readParams_iff F ps _ e).1 h
          refine ⟨m, ps, trim m, l, (qpieces_iff ';' e1 e2 _ _).2 hsp, (strips_trim _ _).2 rfl, (C136_mechanism _ _).1 hm, h1, ?_, ?_, ?_⟩
          · intro pre x post hp; exact (room_iff pre).2 (h2 pre x post hp)
          · exact (ordered_iff _).2 (putAll_sorted l [] .nil)
          · intro k v
            have := mem_putAll l k v [] .nil
            simp only [List.not_mem_nil, and_false, or_false] at this
            exact this
  · rintro ⟨m, ps, n, l, h1, h2, h3, h4, h5, h6, h7⟩
    rw [(qpieces_iff ';' e1 e2 _ _).1 h1]
    rw [strips_trim] at h2; subst h2
    simp only []
    have hne : ¬ (trim m).isEmpty = true := by
      rw [List.isEmpty_iff]
      generalize e.mech = mm at h3
      cases h3 with
      | tls h _ => exact h.1
      | digest h _ => exact h.1
      | ike h _ => exact h.1
      | man h _ => exact h.1
      | other h _ _ _ _ => exact h.1
    rw [if_neg hne, (C136_mechanism _ _).2 h3]
    simp only []
    refine (readParams_iff F ps _ e).2 ⟨l, h4, fun pre x post hp => (room_iff pre).1 (h5 pre x post hp), ?_⟩
    obtain ⟨mech, params⟩ := e
    congr 1
    refine UriText.sorted_ext ((ordered_iff _).1 h6) (putAll_sorted l [] .nil) (fun x => ?_)
    obtain ⟨k, v⟩ := x
    have := mem_putAll l k v [] .nil
    simp only [List.not_mem_nil, and_false, or_false] at this
    exact (h7 k v).trans this.symm

theorem entries_unique (F : Floats) {ps : List Str} {a b : List Entry} (ha : Entries F ps a) (hb : Entries F ps b) : a = b := by
  induction ha generalizing b with
  | nil => cases hb; rfl
  | blank h _ ih =>
    cases hb with
    | blank _ hr => exact ih hr
    | entry h' hne _ _ => rw [strips_trim] at h h'; exact absurd (h'.trans h.symm) hne
  | entry h hne he _ ih =>
    cases hb with
    | blank h' _ => rw [strips_trim] at h h'; exact absurd (h.trans h'.symm) hne
    | entry h' _ he' hr =>
      rw [strips_trim] at h h'
      subst h; subst h'
      rw [← C136_entry] at he he'
      rw [he] at he'; cases he'
      rw [ih hr]

theorem readEntries_iff (F : Floats) (ps : List Str) (es out : List Entry) :
    readEntries F ps es = some out ↔ ∃ new, Entries F ps new ∧ out = es ++ new ∧
      ∀ pre p post x, ps = pre ++ p :: post → Entries F pre x → es.length + x.length < 10 := by
  induction ps generalizing es with
  | nil =>
    rw [readEntries]
    constructor
    · intro h; cases h
      exact ⟨[], .nil, by simp, by intro pre p post x h; simp at h⟩
    · rintro ⟨new, h1, rfl, _⟩
      cases h1; simp
  | cons p ps ih =>
    rw [readEntries]
    unfold MAX_ENTRIES
    by_cases hl : es.length ≥ 10
    · rw [if_pos hl]
      refine ⟨nofun, ?_⟩
      rintro ⟨new, _, _, h⟩
      have := h [] p ps [] rfl .nil
      simp at this; omega
    · rw [if_neg hl]
      by_cases hb : (trim p).isEmpty = true
      · rw [if_pos hb, ih]
        have hbs : Strips isWs p [] := (strips_trim _ _).2 (List.isEmpty_iff.1 hb).symm
        constructor
        · rintro ⟨new, h1, h2, h3⟩
          refine ⟨new, .blank hbs h1, h2, ?_⟩
          intro pre q post x hp hx
          cases pre with
          | nil => cases hx; simp; omega
          | cons z pre =>
            simp at hp
            obtain ⟨rfl, hp⟩ := hp
            cases hx with
            | blank _ hx => exact h3 pre q post x hp hx
            | entry h' hne _ _ => rw [strips_trim] at h' hbs; exact absurd (h'.trans hbs.symm) hne
        · rintro ⟨new, h1, h2, h3⟩
          cases h1 with
          | blank _ h1 => exact ⟨new, h1, h2, fun pre q post x hp hx => h3 (p :: pre) q post x (by rw [hp]; rfl) (.blank hbs hx)⟩
          | entry h' hne _ _ => rw [strips_trim] at h' hbs; exact absurd (h'.trans hbs.symm) hne
      · rw [if_neg hb]
        rw [List.isEmpty_iff] at hb
        have hps : Strips isWs p (trim p) := (strips_trim _ _).2 rfl
        cases he : parseEntry F (trim p) with
        | none =>
          refine ⟨nofun, ?_⟩
          rintro ⟨new, h1, _⟩
          cases h1 with
          | blank h _ => rw [strips_trim] at h; exact absurd h.symm hb
          | entry h _ h' _ => rw [strips_trim] at h; subst h; rw [← C136_entry, he] at h'; cases h'
        | some e =>
          simp only []
          rw [ih]
          have het := (C136_entry F _ _).1 he
          constructor
          · rintro ⟨new, h1, h2, h3⟩
            refine ⟨e :: new, .entry hps hb het h1, by rw [h2]; simp, ?_⟩
            intro pre q post x hp hx
            cases pre with
            | nil => cases hx; simp; omega
            | cons z pre =>
              simp at hp
              obtain ⟨rfl, hp⟩ := hp
              cases hx with
              | blank h _ => rw [strips_trim] at h; exact absurd h.symm hb
              | entry h _ h' hx =>
                have := h3 pre q post _ hp hx
                simp at this ⊢; omega
          · rintro ⟨new, h1, h2, h3⟩
            cases h1 with
            | blank h _ => rw [strips_trim] at h; exact absurd h.symm hb
            | entry h _ h' h1 =>
              rw [strips_trim] at h; subst h
              rw [← C136_entry, he] at h'; cases h'
              refine ⟨_, h1, by rw [h2]; simp, fun pre q post x hp hx => ?_⟩
              have := h3 (p :: pre) q post (e :: x) (by rw [hp]; rfl) (.entry hps hb het hx)
              simp at this ⊢; omega

theorem entries_append (F : Floats) {pre post : List Str} {x y : List Entry} (h : Entries F pre x) (h' : Entries F post y) :
    Entries F (pre ++ post) (x ++ y) := by
  induction h with
  | nil => exact h'
  | blank h _ ih => exact .blank h ih
  | entry h hn he _ ih => exact .entry h hn he ih

theorem entries_split (F : Floats) {pre post : List Str} {z : List Entry} (h : Entries F (pre ++ post) z) :
    ∃ x y, Entries F pre x ∧ Entries F post y ∧ z = x ++ y := by
  induction pre generalizing z with
  | nil => exact ⟨[], z, .nil, h, rfl⟩
  | cons p pre ih =>
    cases h with
    | blank hb hr =>
      obtain ⟨x, y, h1, h2, h3⟩ := ih hr
      exact ⟨x, y, .blank hb h1, h2, h3⟩
    | entry hs hn he hr =>
      obtain ⟨x, y, h1, h2, rfl⟩ := ih hr
      exact ⟨_ :: x, y, .entry hs hn he h1, h2, rfl⟩

/-- A header never has more than ten entries, so the final check never refuses one. -/
theorem C136_ten (F : Floats) (s : Str) (es : List Entry) (h : HeaderText F s es) : es.length ≤ 10 := by
  obtain ⟨ps, _, h2, _, h4⟩ := h
  rcases List.eq_nil_or_concat ps with rfl | ⟨pre, p, rfl⟩
  · cases h2; simp
  · rw [List.concat_eq_append] at *
    obtain ⟨x, y, h5, h6, rfl⟩ := entries_split F h2
    have := h4 pre p [] x (by simp) h5
    have : y.length ≤ 1 := by
      cases h6 with
      | blank _ hr => cases hr; simp
      | entry _ _ _ hr => cases hr; simp
    simp; omega

/-- **C136.** A Security-Client, Security-Server or Security-Verify header is read exactly when its text is one, and then as
what the text says. -/
theorem C136_header (F : Floats) (s : Str) (es : List Entry) : parseHeader F s = some es ↔ HeaderText F s es := by
  have e1 : (',' : Char) ≠ '"' := by decide
  have e2 : (',' : Char) ≠ '\\' := by decide
  have hiff : ∀ out, readEntries F (splitUnquoted ',' s [] false false) [] = some out ↔
      ∃ ps, QPieces ',' s ps ∧ Entries F ps out ∧ ∀ pre p post x, ps = pre ++ p :: post → Entries F pre x → x.length < 10 := by
    intro out
    rw [readEntries_iff]
    constructor
    · rintro ⟨new, h1, h2, h3⟩
      simp only [List.nil_append] at h2
      subst h2
      exact ⟨_, (qpieces_iff ',' e1 e2 _ _).2 rfl, h1, fun pre p post x hp hx => by simpa using h3 pre p post x hp hx⟩
    · rintro ⟨ps, h0, h1, h3⟩
      rw [qpieces_iff ',' e1 e2] at h0
      subst h0
      exact ⟨out, h1, rfl, fun pre p post x hp hx => by simpa using h3 pre p post x hp hx⟩
  unfold parseHeader newHeader MAX_ENTRIES
  constructor
  · intro h
    cases hr : readEntries F (splitUnquoted ',' s [] false false) [] with
    | none => rw [hr] at h; cases h
    | some out =>
      rw [hr] at h
      cases out with
      | nil => cases h
      | cons e out =>
        simp only [] at h
        split at h
        · cases h
        · cases h
          obtain ⟨ps, h1, h2, h3⟩ := (hiff _).1 hr
          exact ⟨ps, h1, h2, by simp, h3⟩
  · intro h
    have hten := C136_ten F s es h
    obtain ⟨ps, h1, h2, h3, h4⟩ := h
    rw [(hiff es).2 ⟨ps, h1, h2, h4⟩]
    cases es with
    | nil => exact absurd rfl h3
    | cons e es =>
      simp only []
      rw [if_neg (by omega)]

/-- **C136.** The entries that are read have their parameters in order, so that what is proved about the choice holds. -/
theorem C136_ordered (F : Floats) (s : Str) (es : List Entry) (h : parseHeader F s = some es) : ∀ e ∈ es, Ordered e.params := by
  obtain ⟨ps, h1, h2, h3⟩ := (C136_header F s es).1 h
  clear h h1 h3
  induction h2 with
  | nil => simp
  | blank _ _ ih => exact ih
  | entry _ _ he _ ih =>
    intro e hm
    rcases List.mem_cons.1 hm with rfl | hm
    · obtain ⟨_, _, _, _, _, _, _, _, _, h, _⟩ := he; exact h
    · exact ih e hm

example : parseHeader exact4 "ipsec-ike; q=0.1, TLS;q=0.2 ,digest;d-alg=\"a,b;c\";q=7".toList =
    some [withQ .ipsecIke "0.1", withQ .tls "0.2", ⟨.digest, [("d-alg".toList, some "\"a,b;c\"".toList)]⟩] := by decide +kernel
example : HeaderText exact4 "tls;q=0.2".toList [withQ .tls "0.2"] := (C136_header _ _ _).1 (by decide +kernel)

/-! ## Writing -/

theorem after_plain : ∀ s : Str, '"' ∉ s → after s = .outside := by
  have : ∀ s : Str, '"' ∉ s → s.foldl Quote.next .outside = .outside := by
    intro s
    induction s with
    | nil => intro _; rfl
    | cons c s ih =>
      intro h
      simp only [List.mem_cons, not_or] at h
      rw [List.foldl_cons]
      have : Quote.next .outside c = .outside := by
        show (if c = '"' then Quote.inside else Quote.outside) = _
        rw [if_neg (fun e => h.1 e.symm)]
      rw [this]
      exact ih h.2
  exact this

theorem unbroken_plain (sep : Char) (s : Str) (h : sep ∉ s) : Unbroken sep s := by
  intro a b hab
  exact absurd (by rw [hab]; simp) h

theorem qpieces_join (sep : Char) : ∀ ps : List Str, ps ≠ [] → (∀ p ∈ ps, sep ∉ p ∧ '"' ∉ p) → QPieces sep (join sep ps) ps
  | [], h, _ => absurd rfl h
  | [p], _, h => .last (unbroken_plain sep p (h p (by simp)).1)
  | p :: q :: ps, _, h =>
    .more ⟨unbroken_plain sep p (h p (by simp)).1, after_plain p (h p (by simp)).2⟩
      (qpieces_join sep (q :: ps) (by simp) (fun x hx => h x (List.mem_cons_of_mem _ hx)))

/-- A parameter without its semicolon. -/
def body (p : Str × Option Str) : Str :=
  match p.2 with
  | some v => p.1 ++ '=' :: v
  | none => p.1

theorem show_join (n : Str) : ∀ l : List (Str × Option Str), n ++ (l.map paramText).flatten = join ';' (n :: l.map body)
  | [] => by simp [join]
  | p :: l => by
    have ih := show_join (body p) l
    have hp : paramText p = ';' :: body p := by unfold paramText body; cases p.2 <;> simp
    show n ++ (paramText p ++ (l.map paramText).flatten) = n ++ ';' :: join ';' (body p :: l.map body)
    rw [← ih, hp]; simp

theorem body_facts (F : Floats) (e : Entry) (hw : Writable F e) (p : Str × Option Str) (hp : p ∈ e.params) :
    body p ≠ [] ∧ Trimmed (body p) ∧ ';' ∉ body p ∧ ',' ∉ body p ∧ '"' ∉ body p ∧ Item F (body p) (some p) := by
  obtain ⟨k, v⟩ := p
  obtain ⟨⟨hk1, hk2, hk3⟩, hkq⟩ := hw.names k v hp
  have kw : ∀ c ∈ k, isWs c = false := fun c hc => (hk3 c hc).2.1
  have ks : ';' ∉ k := fun h => (hk3 _ h).2.2.1 rfl
  have ke : '=' ∉ k := fun h => (hk3 _ h).2.2.2.1 rfl
  have kc : ',' ∉ k := fun h => (hk3 _ h).2.2.2.2 rfl
  have kt : Trimmed k := ⟨fun c hc => kw c (List.mem_of_head? hc), fun c hc => kw c (List.mem_of_getLast? hc)⟩
  cases v with
  | none =>
    refine ⟨hk1, kt, ks, kc, hkq, ?_⟩
    exact .flag ((strips_trim _ _).2 (trim_of_trimmed _ kt).symm) hk1 (unbroken_plain _ _ ke) ⟨hk1, hk2, hk3⟩
  | some v =>
    obtain ⟨hv, ⟨vs, vc, vq⟩, vt, hq⟩ := hw.values k v hp
    have bt : Trimmed (k ++ '=' :: v) := by
      refine ⟨fun c hc => ?_, fun c hc => ?_⟩
      · cases k with
        | nil => exact absurd rfl hk1
        | cons x k => exact kt.1 c (by simpa using hc)
      · rw [List.getLast?_append] at hc
        cases v with
        | nil => simp at hc; subst hc; decide
        | cons x v =>
          apply vt.2 c
          rw [List.getLast?_cons_cons] at hc
          have : (x :: v).getLast? ≠ none := by simp
          cases hl : (x :: v).getLast? with
          | none => exact absurd hl this
          | some y => rw [hl] at hc; simpa using hc
    show (k ++ '=' :: v) ≠ [] ∧ Trimmed (k ++ '=' :: v) ∧ ';' ∉ k ++ '=' :: v ∧ ',' ∉ k ++ '=' :: v ∧ '"' ∉ k ++ '=' :: v ∧
      Item F (k ++ '=' :: v) (some (k, some v))
    refine ⟨by simp, bt, by simp [ks, vs], by simp [kc, vc], by simp [hkq, vq], ?_⟩
    exact .value ((strips_trim _ _).2 (trim_of_trimmed _ bt).symm) ⟨unbroken_plain _ _ ke, after_plain _ hkq⟩
      ((strips_trim _ _).2 (trim_of_trimmed _ kt).symm) ((strips_trim _ _).2 (trim_of_trimmed _ vt).symm) ⟨hk1, hk2, hk3⟩ hv hq

theorem names_good {n : Str} {m : Mechanism} (h : Names n m) : MechName n := by
  cases h <;> assumption

theorem join_last (c : Char) : ∀ (ps : List Str), ps ≠ [] → (∀ p ∈ ps, p ≠ [] ∧ Trimmed p) → Trimmed (join c ps) ∧ join c ps ≠ []
  | [], h, _ => absurd rfl h
  | [p], _, h => ⟨(h p (by simp)).2, (h p (by simp)).1⟩
  | p :: q :: ps, _, h => by
    obtain ⟨h1, h2⟩ := join_last c (q :: ps) (by simp) (fun x hx => h x (List.mem_cons_of_mem _ hx))
    obtain ⟨h3, h4⟩ := h p (by simp)
    show Trimmed (p ++ c :: join c (q :: ps)) ∧ p ++ c :: join c (q :: ps) ≠ []
    refine ⟨⟨fun x hx => ?_, fun x hx => ?_⟩, by simp⟩
    · cases p with
      | nil => exact absurd rfl h3
      | cons y p => exact h4.1 x (by simpa using hx)
    · apply h1.2 x
      rw [show p ++ c :: join c (q :: ps) = (p ++ [c]) ++ join c (q :: ps) by simp, List.getLast?_append] at hx
      cases hl : (join c (q :: ps)).getLast? with
      | none => exact absurd (List.getLast?_eq_none_iff.1 hl) h2
      | some y => rw [hl] at hx; simpa using hx

theorem mech_text (m : Mechanism) (h : ∀ s, m = .other s → Bare s ∧ Names s (.other s)) : Bare m.text ∧ Names m.text m := by
  cases m with
  | other s => exact h s rfl
  | tls => exact ⟨by unfold Bare; decide, (C136_mechanism _ _).1 (by decide +kernel)⟩
  | digest => exact ⟨by unfold Bare; decide, (C136_mechanism _ _).1 (by decide +kernel)⟩
  | ipsecIke => exact ⟨by unfold Bare; decide, (C136_mechanism _ _).1 (by decide +kernel)⟩
  | ipsecMan => exact ⟨by unfold Bare; decide, (C136_mechanism _ _).1 (by decide +kernel)⟩

theorem entry_text (F : Floats) (e : Entry) (hw : Writable F e) :
    EntryText F e.show e ∧ Trimmed e.show ∧ e.show ≠ [] ∧ ',' ∉ e.show ∧ '"' ∉ e.show := by
  obtain ⟨⟨b1, b2, b3⟩, hn⟩ := mech_text e.mech hw.mech
  obtain ⟨g1, g2, g3⟩ := names_good hn
  have nt : Trimmed e.mech.text :=
    ⟨fun c hc => (g3 c (List.mem_of_head? hc)).2, fun c hc => (g3 c (List.mem_of_getLast? hc)).2⟩
  have hs : e.show = join ';' (e.mech.text :: e.params.map body) := show_join _ _
  have hb := body_facts F e hw
  have hall : ∀ p ∈ e.mech.text :: e.params.map body, p ≠ [] ∧ Trimmed p ∧ ';' ∉ p ∧ ',' ∉ p ∧ '"' ∉ p := by
    intro p hp
    rcases List.mem_cons.1 hp with rfl | hp
    · exact ⟨g1, nt, b1, b2, b3⟩
    · obtain ⟨x, hx, rfl⟩ := List.mem_map.1 hp
      obtain ⟨h1, h2, h3, h4, h5, _⟩ := hb x hx
      exact ⟨h1, h2, h3, h4, h5⟩
  have hmem : ∀ (c d : Char) (ps : List Str), c ≠ d → (∀ p ∈ ps, c ∉ p) → c ∉ join d ps := by
    intro c d ps hcd
    induction ps with
    | nil => simp [join]
    | cons p ps ih =>
      intro h
      cases ps with
      | nil => exact h p (by simp)
      | cons q ps =>
        show c ∉ p ++ d :: join d (q :: ps)
        simp only [List.mem_append, List.mem_cons, not_or]
        exact ⟨h p (by simp), hcd, ih (fun x hx => h x (List.mem_cons_of_mem _ hx))⟩
  obtain ⟨t1, t2⟩ := join_last ';' (e.mech.text :: e.params.map body) (by simp) (fun p hp => ⟨(hall p hp).1, (hall p hp).2.1⟩)
  refine ⟨?_, by rw [hs]; exact t1, by rw [hs]; exact t2, ?_, ?_⟩
  · refine ⟨e.mech.text, e.params.map body, e.mech.text, e.params, ?_, (strips_trim _ _).2 (trim_of_trimmed _ nt).symm, hn, ?_, ?_,
      hw.ordered, ?_⟩
    · rw [hs]; exact qpieces_join ';' _ (by simp) (fun p hp => ⟨(hall p hp).2.2.1, (hall p hp).2.2.2.2⟩)
    · have : ∀ l : List (Str × Option Str), (∀ p ∈ l, Item F (body p) (some p)) → Items F (l.map body) l := by
        intro l
        induction l with
        | nil => intro _; exact .nil
        | cons p l ih => intro h; exact .some (h p (by simp)) (ih (fun x hx => h x (List.mem_cons_of_mem _ hx)))
      exact this _ (fun p hp => (hb p hp).2.2.2.2.2)
    · intro pre x post hp ks hn hk
      have h1 := length_le ks (pre.map (·.1)) hn (fun k hk' => by
        obtain ⟨v, hv⟩ := hk k hk'
        exact List.mem_map.2 ⟨(k, v), hv, rfl⟩)
      have h2 := hw.few
      have h3 := congrArg List.length hp
      simp at h1 h3
      omega
    · intro k v
      constructor
      · intro h
        obtain ⟨pre, post, hp⟩ := List.append_of_mem h
        refine ⟨pre, post, hp, fun w hw' => ?_⟩
        have ho := hw.ordered
        unfold Ordered at ho
        rw [hp, List.pairwise_append] at ho
        have := (List.pairwise_cons.1 ho.2.1).1 _ hw'
        exact absurd this (by simp)
      · rintro ⟨pre, post, h, _⟩
        rw [h]; simp
  · rw [hs]; exact hmem ',' ';' _ (by decide) (fun p hp => (hall p hp).2.2.2.1)
  · rw [hs]; exact hmem '"' ';' _ (by decide) (fun p hp => (hall p hp).2.2.2.2)

theorem showEntries_join : ∀ (e : Entry) (es : List Entry), showEntries (e :: es) = join ',' (e.show :: es.map (fun x => ' ' :: x.show))
  | e, [] => rfl
  | e, x :: es => by
    have ih := showEntries_join x es
    show e.show ++ ", ".toList ++ showEntries (x :: es) = e.show ++ ',' :: join ',' ((' ' :: x.show) :: es.map (fun x => ' ' :: x.show))
    rw [ih]
    cases es <;> simp [join]

/-- **C136.** One to ten writable entries are read back as they were when written. -/
theorem C136_roundtrip_partial (F : Floats) (es : List Entry) (hne : es ≠ []) (hl : es.length ≤ 10) (hw : ∀ e ∈ es, Writable F e) :
    parseHeader F (showEntries es) = some es := by
  rw [C136_header]
  cases es with
  | nil => exact absurd rfl hne
  | cons e es =>
    have he := entry_text F e (hw e (by simp))
    have hes : ∀ x ∈ es, _ := fun x hx => entry_text F x (hw x (List.mem_cons_of_mem _ hx))
    have hE : ∀ l : List Entry, (∀ x ∈ l, EntryText F x.show x ∧ Trimmed x.show ∧ x.show ≠ [] ∧ ',' ∉ x.show ∧ '"' ∉ x.show) →
        Entries F (l.map (fun x => ' ' :: x.show)) l := by
      intro l
      induction l with
      | nil => intro _; exact .nil
      | cons x l ih =>
        intro h
        obtain ⟨h1, h2, h3, _⟩ := h x (by simp)
        refine .entry ?_ h3 h1 (ih (fun y hy => h y (List.mem_cons_of_mem _ hy)))
        refine ⟨[' '], [], by simp, by decide, by simp, h2.1, h2.2⟩
    have hall : Entries F (e.show :: es.map (fun x => ' ' :: x.show)) (e :: es) :=
      .entry ((strips_trim _ _).2 (trim_of_trimmed _ he.2.1).symm) he.2.2.1 he.1 (hE es hes)
    refine ⟨e.show :: es.map (fun x => ' ' :: x.show), ?_, hall, by simp, ?_⟩
    · rw [showEntries_join]
      apply qpieces_join ',' _ (by simp)
      intro p hp
      rcases List.mem_cons.1 hp with rfl | hp
      · exact he.2.2.2
      · obtain ⟨x, hx, rfl⟩ := List.mem_map.1 hp
        obtain ⟨_, _, _, h4, h5⟩ := hes x hx
        exact ⟨by simp [h4], by simp [h5]⟩
    · intro pre p post es' hp he'
      rw [hp] at hall
      obtain ⟨x, y, h1, h2, h3⟩ := entries_split F hall
      rw [entries_unique F he' h1]
      have hlen : ∀ {ps : List Str} {l : List Entry}, Entries F ps l → l.length ≤ ps.length := by
        intro ps l h
        induction h with
        | nil => simp
        | blank _ _ ih => simp; omega
        | entry _ _ _ _ ih => simp; omega
      have a := hlen h1
      have b := congrArg List.length hp
      simp at b hl
      omega

/-- Entries with parameters and preferences are writable. -/
example : Writable exact4 (withQ .tls "0.5") where
  mech := nofun
  ordered := by simp [withQ, Ordered]
  few := by decide +kernel
  names := by
    intro k v h
    simp [withQ] at h
    obtain ⟨rfl, rfl⟩ := h
    exact ⟨(validName_iff _).1 (by decide +kernel), by decide⟩
  values := by
    intro k v h
    simp [withQ] at h
    obtain ⟨rfl, rfl⟩ := h
    exact ⟨(validValue_iff _).1 (by decide +kernel), ⟨by decide +kernel, by decide +kernel, by decide +kernel⟩,
      ⟨by decide +kernel, by decide +kernel⟩, fun _ => ⟨⟨1 / 2, false⟩, (parseQ_iff _ _ _).1 (by decide +kernel)⟩⟩

/-- **C136, finding.** A parameter value may contain a semicolon: an entry made without a preference is written as a text
with one, and the peer's choice changes. -/
theorem C136_injected :
    ∃ e e', Entry.digest "MD5;q=1".toList none = some e ∧ e.preference exact4 = none ∧
      parseHeader exact4 (showEntries [e]) = some [e'] ∧ e'.preference exact4 = some ⟨1, false⟩ :=
  ⟨⟨.digest, [("d-alg".toList, some "MD5;q=1".toList)]⟩, ⟨.digest, [("d-alg".toList, some "MD5".toList), (['q'], some ['1'])]⟩,
    by decide +kernel, by decide +kernel, by decide +kernel, by decide +kernel⟩

end Siphon.SecAgree
