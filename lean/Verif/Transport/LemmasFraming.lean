import Verif.Transport.LemmasLength

set_option linter.unusedSimpArgs false

/-!
# One cut, one drain, one session
-/

namespace Siphon.Transport

/-! ## Line ends -/

def isEnd (b : UInt8) : Bool := b == CR || b == LF

theorem isEnd_iff (b : UInt8) : isEnd b = true ↔ b = CR ∨ b = LF := by simp [isEnd]

theorem skipCrlf_eq (s : Bytes) : skipCrlf s = s.dropWhile isEnd := by
  fun_induction skipCrlf s with
  | case1 => rfl
  | case2 => decide
  | case3 => decide
  | case4 b h1 h2 => simp [List.dropWhile_cons, isEnd, h1, h2]
  | case5 b c bs h ih => simp [List.dropWhile_cons, isEnd, h.1, h.2, ih]
  | case6 c bs h1 ih =>
    rw [ih, List.dropWhile_cons (x := LF), if_pos (by decide)]
  | case7 c bs h1 h2 ih =>
    rw [ih, List.dropWhile_cons (x := CR), if_pos (by decide)]
  | case8 b c bs h1 h2 h3 => simp [List.dropWhile_cons, isEnd, h2, h3]

theorem skipCrlf_split (s : Bytes) : ∃ g, s = g ++ skipCrlf s ∧ LineEnds g ∧
    ∀ x, (skipCrlf s).head? = some x → x ≠ CR ∧ x ≠ LF := by
  rw [skipCrlf_eq]
  obtain ⟨g, h1, h2, h3⟩ := dropWhile_split isEnd s
  refine ⟨g, h1, fun b hb => (isEnd_iff b).1 (h2 b hb), ?_⟩
  intro x hx
  have := h3 x hx
  simpa [isEnd] using this

theorem skipCrlf_append (g s : Bytes) (hg : LineEnds g) : skipCrlf (g ++ s) = skipCrlf s := by
  rw [skipCrlf_eq, skipCrlf_eq]
  exact dropWhile_append_of_all g s fun x hx => (isEnd_iff x).2 (hg x hx)

theorem skipCrlf_id (s : Bytes) (h : ∀ x, s.head? = some x → x ≠ CR ∧ x ≠ LF) : skipCrlf s = s := by
  rw [skipCrlf_eq]
  cases s with
  | nil => rfl
  | cons x s =>
    have := h x rfl
    simp [List.dropWhile_cons, isEnd, this.1, this.2]

theorem head?_append_left {a b : Bytes} {x : UInt8} (h : a ≠ []) (hx : (a ++ b).head? = some x) :
    a.head? = some x := by
  cases a with
  | nil => exact absurd rfl h
  | cons y a => simpa using hx

theorem skipCrlf_append_right (a c : Bytes) : skipCrlf (a ++ c) = skipCrlf (skipCrlf a ++ c) := by
  obtain ⟨g, h1, h2, _⟩ := skipCrlf_split a
  conv => lhs; rw [h1, List.append_assoc, skipCrlf_append g _ h2]

/-! ## The blank line -/

theorem findBlank_append : ∀ (s t : Bytes) (p : Nat), findBlank s = some p →
    findBlank (s ++ t) = some p
  | [], _, _, h => by simp [findBlank] at h
  | b :: s, t, p, h => by
    simp only [findBlank] at h
    split at h
    · rename_i hb
      simp only [Option.some.injEq] at h
      subst h
      have : ((b :: s) ++ t).take 4 = blank := by
        rw [List.take_append_of_le_length]
        · exact hb
        · have := congrArg List.length hb
          simp at this ⊢
          omega
      simp only [List.cons_append] at this
      rw [List.cons_append, findBlank, if_pos this]
    · rename_i hb
      obtain ⟨q, hq, rfl⟩ := Option.map_eq_some_iff.1 h
      have ih := findBlank_append s t q hq
      rw [List.cons_append, findBlank]
      have hlen : 4 ≤ s.length := by
        clear ih hb h
        induction s generalizing q with
        | nil => simp [findBlank] at hq
        | cons c s ih =>
          simp only [findBlank] at hq
          split at hq
          · rename_i hb
            have := congrArg List.length hb
            simp at this ⊢
            omega
          · obtain ⟨q', hq', rfl⟩ := Option.map_eq_some_iff.1 hq
            have := ih q' hq'
            simp; omega
      have hne : (b :: (s ++ t)).take 4 ≠ blank := by
        intro hc
        apply hb
        rw [blank] at hc
        rw [← hc, ← List.cons_append, List.take_append_of_le_length]
        simp; omega
      rw [if_neg hne, ih]
      rfl

theorem findBlank_spec : ∀ (s : Bytes) (p : Nat), findBlank s = some p →
    (∃ c, s = s.take p ++ blank ++ c) ∧ p + 4 ≤ s.length ∧
      ∀ a c, s = a ++ blank ++ c → p ≤ a.length
  | [], _, h => by simp [findBlank] at h
  | b :: s, p, h => by
    simp only [findBlank] at h
    split at h
    · rename_i hb
      simp only [Option.some.injEq] at h
      subst h
      refine ⟨⟨(b :: s).drop 4, ?_⟩, ?_, by simp⟩
      · rw [List.take_zero, List.nil_append, blank, ← hb, List.take_append_drop]
      · have := congrArg List.length hb
        simp at this ⊢
        omega
    · rename_i hb
      obtain ⟨q, hq, rfl⟩ := Option.map_eq_some_iff.1 h
      obtain ⟨⟨c, h1⟩, h2, h3⟩ := findBlank_spec s q hq
      refine ⟨⟨c, ?_⟩, ?_, ?_⟩
      · simp only [List.take_succ_cons, List.cons_append]
        rw [← h1]
      · simp; omega
      · intro a c' h4
        cases a with
        | nil =>
          exfalso; apply hb
          rw [h4]; rfl
        | cons x a =>
          simp only [List.cons_append, List.cons.injEq] at h4
          have := h3 a c' h4.2
          simp; omega

theorem findBlank_exists : ∀ (a c : Bytes), ∃ p, findBlank (a ++ blank ++ c) = some p ∧ p ≤ a.length
  | [], c => ⟨0, by simp [findBlank], by simp⟩
  | x :: a, c => by
    obtain ⟨p, h1, h2⟩ := findBlank_exists a c
    simp only [List.cons_append, findBlank]
    split
    · exact ⟨0, rfl, by simp⟩
    · exact ⟨p + 1, by rw [h1]; rfl, by simp; omega⟩

theorem findBlank_header (head c : Bytes) (h : HeaderBlock head) :
    findBlank (head ++ blank ++ c) = some head.length := by
  apply findBlank_append
  obtain ⟨p, h1, h2⟩ := findBlank_exists head []
  rw [List.append_nil] at h1
  obtain ⟨⟨c', h3⟩, h4, _⟩ := findBlank_spec _ _ h1
  have := h.2 _ _ h3
  rw [List.length_take] at this
  rw [h1]
  congr 1
  simp at this h4
  omega

theorem headerBlock_of_find (s : Bytes) (p : Nat) (h : findBlank s = some p)
    (hs : ∀ x, s.head? = some x → x ≠ CR ∧ x ≠ LF) : HeaderBlock (s.take p) ∧
      (s.take p).length = p := by
  obtain ⟨⟨c, h1⟩, h2, h3⟩ := findBlank_spec s p h
  have hlen : (s.take p).length = p := by rw [List.length_take]; omega
  refine ⟨⟨?_, ?_⟩, hlen⟩
  · cases s with
    | nil => simp at h2
    | cons x s =>
      have hx := hs x rfl
      cases p with
      | zero =>
        exfalso
        simp at h1
        exact hx.1 h1.1
      | succ p => exact ⟨x, s.take p, by simp, hx.1, hx.2⟩
  · intro a c' h4
    rw [hlen]
    refine h3 a (c' ++ c) ?_
    rw [h1, h4]; simp

/-! ## One cut -/

theorem cut_message {m : Nat} (hm : m ≤ maxHeader) (g f w : Bytes) (hg : LineEnds g)
    (hf : Message m f) : cut (g ++ f ++ w) = .frame f w := by
  obtain ⟨head, body, rfl, h1, h2, h3, h4⟩ := hf
  obtain ⟨⟨b, t, hb, hb1, hb2⟩, _⟩ := id h1
  unfold cut
  have hskip : skipCrlf (g ++ (head ++ blank ++ body) ++ w) = head ++ blank ++ (body ++ w) := by
    rw [List.append_assoc, skipCrlf_append g _ hg, skipCrlf_id]
    · simp
    · intro x hx
      rw [hb] at hx
      simp at hx
      subst hx
      exact ⟨hb1, hb2⟩
  rw [hskip]
  simp only []
  rw [if_neg (by simp), findBlank_header head _ h1]
  simp only []
  rw [if_neg (by omega)]
  have htake : (head ++ blank ++ (body ++ w)).take head.length = head := by simp
  rw [htake, (parseContentLength_some head body.length).2 ⟨h3, by omega⟩]
  simp only []
  rw [if_neg (by unfold maxBody; omega), if_neg (by simp; omega)]
  have hl : head.length + 4 + body.length = (head ++ blank ++ body).length := by simp; omega
  rw [hl, show head ++ blank ++ (body ++ w) = (head ++ blank ++ body) ++ w by simp,
    List.take_left, List.drop_left]

theorem cut_frame {buf f w : Bytes} (h : cut buf = .frame f w) :
    ∃ g, buf = g ++ f ++ w ∧ LineEnds g ∧ Message maxHeader f := by
  obtain ⟨g, h1, h2, h3⟩ := skipCrlf_split buf
  unfold cut at h
  generalize skipCrlf buf = b at *
  simp only [] at h
  split at h
  · simp at h
  · cases hp : findBlank b with
    | none =>
      rw [hp] at h
      simp only [] at h
      split at h <;> simp at h
    | some p =>
      rw [hp] at h
      simp only [] at h
      split at h
      · simp at h
      · rename_i hlen
        cases hc : parseContentLength (b.take p) with
        | error e => rw [hc] at h; simp at h
        | ok o =>
          cases o with
          | none => rw [hc] at h; simp at h
          | some n =>
            rw [hc] at h
            simp only [] at h
            split at h
            · simp at h
            · rename_i hn
              split at h
              · simp at h
              · rename_i hb
                simp only [Cut.frame.injEq] at h
                obtain ⟨rfl, rfl⟩ := h
                have hh := headerBlock_of_find b p hp h3
                obtain ⟨⟨c, h4⟩, h5, _⟩ := findBlank_spec b p hp
                refine ⟨g, ?_, h2, b.take p, (b.drop (p + 4)).take n, ?_, hh.1, ?_, ?_, ?_⟩
                · rw [List.append_assoc, List.take_append_drop]; exact h1
                · have h6 : b.take (p + 4) = b.take p ++ blank := by
                    have e : p + 4 = (b.take p ++ blank).length := by simp [hh.2]
                    have e2 := List.take_left (l₁ := b.take p ++ blank) (l₂ := c)
                    rw [← h4, ← e] at e2
                    exact e2
                  rw [← h6, List.take_add]
                · rw [hh.2]; omega
                · have := (parseContentLength_some _ _).1 hc
                  rw [List.length_take, List.length_drop]
                  rw [show min n (b.length - (p + 4)) = n by omega]
                  exact this.1
                · rw [List.length_take]; unfold maxBody at hn; omega

/-- Why the loop stopped without an error: what is left cannot start with a line end, and is
either a header block still in progress or a message lacking part of its body. -/
structure Pending (r : Bytes) : Prop where
  start : ∀ x, r.head? = some x → x ≠ CR ∧ x ≠ LF
  short : (findBlank r = none ∧ r.length ≤ maxHeader) ∨
    ∃ head body n, r = head ++ blank ++ body ∧ HeaderBlock head ∧ head.length ≤ maxHeader ∧
      Declares head n ∧ n ≤ maxBody ∧ body.length < n

theorem cut_wait {buf r : Bytes} (h : cut buf = .wait r) :
    ∃ g, buf = g ++ r ∧ LineEnds g ∧ Pending r := by
  obtain ⟨g, h1, h2, h3⟩ := skipCrlf_split buf
  unfold cut at h
  generalize skipCrlf buf = b at *
  simp only [] at h
  split at h
  · rename_i hb
    simp only [Cut.wait.injEq] at h
    subst h; subst hb
    exact ⟨g, h1, h2, by simp, Or.inl ⟨rfl, by simp⟩⟩
  · cases hp : findBlank b with
    | none =>
      rw [hp] at h
      simp only [] at h
      split at h
      · simp at h
      · rename_i hl
        simp only [Cut.wait.injEq] at h
        subst h
        exact ⟨g, h1, h2, h3, Or.inl ⟨hp, by omega⟩⟩
    | some p =>
      rw [hp] at h
      simp only [] at h
      split at h
      · simp at h
      · rename_i hlen
        cases hc : parseContentLength (b.take p) with
        | error e => rw [hc] at h; simp at h
        | ok o =>
          cases o with
          | none => rw [hc] at h; simp at h
          | some n =>
            rw [hc] at h
            simp only [] at h
            split at h
            · simp at h
            · rename_i hn
              split at h
              · rename_i hb
                simp only [Cut.wait.injEq] at h
                subst h
                have hh := headerBlock_of_find b p hp h3
                obtain ⟨⟨c, h4⟩, h5, _⟩ := findBlank_spec b p hp
                refine ⟨g, h1, h2, h3, Or.inr ⟨b.take p, c, n, h4, hh.1, ?_, ?_, by omega, ?_⟩⟩
                · rw [hh.2]; omega
                · exact ((parseContentLength_some _ _).1 hc).1
                · have := congrArg List.length h4
                  simp only [List.length_append, hh.2] at this
                  simp at this
                  omega
              · simp at h

theorem cut_pending (r : Bytes) (h : Pending r) : cut r = .wait r := by
  unfold cut
  rw [skipCrlf_id r h.start]
  simp only []
  split
  · rename_i hr; rw [hr]
  · rcases h.short with ⟨h1, h2⟩ | ⟨head, body, n, rfl, h1, h2, h3, h4, h5⟩
    · rw [h1]
      simp only []
      rw [if_neg (by omega)]
    · rw [findBlank_header head body h1]
      simp only []
      rw [if_neg (by omega)]
      have htake : (head ++ blank ++ body).take head.length = head := by simp
      rw [htake, (parseContentLength_some head n).2 ⟨h3, by unfold maxBody at h4; omega⟩]
      simp only []
      rw [if_neg (by omega), if_pos (by simp; omega)]

theorem cut_prefix_ends (g s : Bytes) (hg : LineEnds g) : cut (g ++ s) = cut s := by
  unfold cut
  rw [skipCrlf_append g s hg]

/-- A header block the code refuses, for the reason `e`. -/
def Bad (b : Bytes) (e : FrameErr) : Prop :=
  ∃ p, findBlank b = some p ∧
    ((p > maxHeader ∧ e = .headerTooLong) ∨
     (p ≤ maxHeader ∧ parseContentLength (b.take p) = .error e) ∨
     (p ≤ maxHeader ∧ parseContentLength (b.take p) = .ok none ∧ e = .missingLength) ∨
     (p ≤ maxHeader ∧ ∃ n, parseContentLength (b.take p) = .ok (some n) ∧ n > maxBody ∧
        e = .bodyTooLong))

theorem cut_fail_iff (buf : Bytes) (e : FrameErr) : cut buf = .fail e ↔
    (e = .unterminated ∧ findBlank (skipCrlf buf) = none ∧ (skipCrlf buf).length > maxHeader) ∨
    Bad (skipCrlf buf) e := by
  unfold cut Bad
  generalize skipCrlf buf = b
  simp only []
  by_cases hb : b = []
  · subst hb
    simp [findBlank]
  · rw [if_neg hb]
    cases hp : findBlank b with
    | none =>
      simp only []
      split
      · rename_i hl
        simp [hl, eq_comm]
      · rename_i hl
        simp [hl]
    | some p =>
      simp only []
      by_cases hl : p > maxHeader
      · rw [if_pos hl]
        simp only [Cut.fail.injEq, reduceCtorEq, false_and, and_false, false_or, Option.some.injEq]
        constructor
        · rintro rfl; exact ⟨p, rfl, Or.inl ⟨hl, rfl⟩⟩
        · rintro ⟨q, rfl, h⟩
          rcases h with ⟨_, h⟩ | ⟨h, _⟩ | ⟨h, _⟩ | ⟨h, _⟩
          · exact h.symm
          all_goals omega
      · rw [if_neg hl]
        cases hc : parseContentLength (b.take p) with
        | error e' =>
          simp only [Cut.fail.injEq, reduceCtorEq, false_and, and_false, false_or, Option.some.injEq]
          constructor
          · rintro rfl; exact ⟨p, rfl, Or.inr (Or.inl ⟨by omega, hc⟩)⟩
          · rintro ⟨q, rfl, h⟩
            rw [hc] at h
            rcases h with ⟨h, _⟩ | ⟨_, h⟩ | ⟨_, h, _⟩ | ⟨_, n, h, _⟩
            · omega
            · simpa using h
            · simp at h
            · simp at h
        | ok o =>
          cases o with
          | none =>
            simp only [Cut.fail.injEq, reduceCtorEq, false_and, and_false, false_or, Option.some.injEq]
            constructor
            · rintro rfl; exact ⟨p, rfl, Or.inr (Or.inr (Or.inl ⟨by omega, hc, rfl⟩))⟩
            · rintro ⟨q, rfl, h⟩
              rw [hc] at h
              rcases h with ⟨h, _⟩ | ⟨_, h⟩ | ⟨_, _, h⟩ | ⟨_, n, h, _⟩
              · omega
              · simp at h
              · exact h.symm
              · simp at h
          | some n =>
            simp only []
            by_cases hn : n > maxBody
            · rw [if_pos hn]
              simp only [Cut.fail.injEq, reduceCtorEq, false_and, and_false, false_or, Option.some.injEq]
              constructor
              · rintro rfl; exact ⟨p, rfl, Or.inr (Or.inr (Or.inr ⟨by omega, n, hc, hn, rfl⟩))⟩
              · rintro ⟨q, rfl, h⟩
                rw [hc] at h
                rcases h with ⟨h, _⟩ | ⟨_, h⟩ | ⟨_, h, _⟩ | ⟨_, m, _, _, h⟩
                · omega
                · simp at h
                · simp at h
                · exact h.symm
            · rw [if_neg hn]
              have hno : ¬ ((e = FrameErr.unterminated ∧ some p = none ∧ b.length > maxHeader) ∨
                  ∃ p_1, some p = some p_1 ∧ ((p_1 > maxHeader ∧ e = .headerTooLong) ∨
                    (p_1 ≤ maxHeader ∧ parseContentLength (b.take p_1) = .error e) ∨
                    (p_1 ≤ maxHeader ∧ parseContentLength (b.take p_1) = .ok none ∧
                      e = .missingLength) ∨
                    (p_1 ≤ maxHeader ∧ ∃ n, parseContentLength (b.take p_1) = .ok (some n) ∧
                      n > maxBody ∧ e = .bodyTooLong))) := by
                rintro (⟨_, h, _⟩ | ⟨q, h, h'⟩)
                · simp at h
                · simp only [Option.some.injEq] at h
                  subst h
                  rw [hc] at h'
                  rcases h' with ⟨h, _⟩ | ⟨_, h⟩ | ⟨_, h, _⟩ | ⟨_, m, h, h2, _⟩
                  · omega
                  · simp at h
                  · simp at h
                  · simp only [Except.ok.injEq, Option.some.injEq] at h
                    omega
              split
              · exact ⟨fun h => by simp at h, fun h => absurd h hno⟩
              · exact ⟨fun h => by simp at h, fun h => absurd h hno⟩

/-- Later bytes cannot turn a refused header block into an accepted one. -/
theorem cut_bad_append {buf : Bytes} {e : FrameErr} (t : Bytes) (h : Bad (skipCrlf buf) e) :
    cut (buf ++ t) = .fail e := by
  rw [cut_fail_iff]
  refine Or.inr ?_
  obtain ⟨p, h1, h2⟩ := h
  obtain ⟨_, h4, _⟩ := findBlank_spec _ _ h1
  have hskip : skipCrlf (buf ++ t) = skipCrlf buf ++ t := by
    rw [skipCrlf_append_right, skipCrlf_id]
    intro x hx
    obtain ⟨_, _, _, h5⟩ := skipCrlf_split buf
    refine h5 x (head?_append_left ?_ hx)
    intro h0; rw [h0] at h4; simp at h4
  refine ⟨p, ?_, ?_⟩
  · rw [hskip]; exact findBlank_append _ _ _ h1
  · rw [hskip, List.take_append_of_le_length (by omega)]
    exact h2

/-- A complete message is cut off no matter what follows. -/
theorem cut_frame_append {buf f w : Bytes} (t : Bytes) (h : cut buf = .frame f w) :
    cut (buf ++ t) = .frame f (w ++ t) := by
  obtain ⟨g, rfl, h2, h3⟩ := cut_frame h
  rw [List.append_assoc]
  exact cut_message (Nat.le_refl _) g f (w ++ t) h2 h3

/-! ## Draining -/

theorem message_length {m : Nat} {f : Bytes} (h : Message m f) : 4 < f.length := by
  obtain ⟨head, body, rfl, ⟨⟨b, t, rfl, _⟩, _⟩, _⟩ := h
  simp; omega

theorem cut_frame_lt {buf f w : Bytes} (h : cut buf = .frame f w) : w.length < buf.length := by
  obtain ⟨g, rfl, _, h3⟩ := cut_frame h
  have := message_length h3
  simp; omega

theorem drainFuel_mono : ∀ (n m : Nat) (buf : Bytes), buf.length < n → n ≤ m →
    drainFuel m buf = drainFuel n buf
  | 0, _, _, h, _ => by omega
  | n + 1, 0, _, _, h => by omega
  | n + 1, m + 1, buf, h, hm => by
    simp only [drainFuel]
    cases hc : cut buf with
    | wait r => rfl
    | fail e => rfl
    | frame f w =>
      have := cut_frame_lt hc
      simp only []
      rw [drainFuel_mono n m w (by omega) (by omega)]

/-- The loop equation of `drain_sip_frames`. -/
theorem drain_eq (buf : Bytes) : drain buf =
    match cut buf with
    | .wait r => .ok ([], r)
    | .fail e => .error e
    | .frame f w =>
      match drain w with
      | .error e => .error e
      | .ok (fs, r) => .ok (f :: fs, r) := by
  conv => lhs; unfold drain
  simp only [drainFuel]
  cases hc : cut buf with
  | wait r => rfl
  | fail e => rfl
  | frame f w =>
    have := cut_frame_lt hc
    simp only []
    unfold drain
    rw [drainFuel_mono (w.length + 1) buf.length w (by omega) (by omega)]
    cases drainFuel (w.length + 1) w with
    | error e => rfl
    | ok p => rfl

/-- Induction along the loop. -/
theorem drain_induct {P : Bytes → Prop}
    (h : ∀ buf, (∀ f w, cut buf = .frame f w → P w) → P buf) (buf : Bytes) : P buf := by
  have : ∀ n (buf : Bytes), buf.length < n → P buf := by
    intro n
    induction n with
    | zero => intro _ h; omega
    | succ n ih =>
      intro buf hl
      exact h buf fun f w hc => ih w (by have := cut_frame_lt hc; omega)
  exact this _ buf (Nat.lt_succ_self _)

theorem drain_sound (buf : Bytes) : ∀ fs r, drain buf = .ok (fs, r) →
    Layout buf fs r ∧ (∀ f ∈ fs, Message maxHeader f) ∧ Pending r := by
  induction buf using drain_induct with
  | h buf ih =>
    intro fs r h
    rw [drain_eq] at h
    cases hc : cut buf with
    | fail e => rw [hc] at h; simp at h
    | wait r' =>
      rw [hc] at h
      simp only [Except.ok.injEq, Prod.mk.injEq] at h
      obtain ⟨rfl, rfl⟩ := h
      obtain ⟨g, rfl, h2, h3⟩ := cut_wait hc
      exact ⟨.done g r' h2, by simp, h3⟩
    | frame f w =>
      rw [hc] at h
      simp only [] at h
      cases hd : drain w with
      | error e => rw [hd] at h; simp at h
      | ok p =>
        obtain ⟨fs', r'⟩ := p
        rw [hd] at h
        simp only [Except.ok.injEq, Prod.mk.injEq] at h
        obtain ⟨rfl, rfl⟩ := h
        obtain ⟨h1, h2, h3⟩ := ih f w hc _ _ hd
        obtain ⟨g, rfl, h4, h5⟩ := cut_frame hc
        refine ⟨.cons g f w fs' r' h4 h1, ?_, h3⟩
        intro x hx
        rcases List.mem_cons.1 hx with rfl | hx
        · exact h5
        · exact h2 x hx

theorem drain_prefix_ends (g s : Bytes) (hg : LineEnds g) : drain (g ++ s) = drain s := by
  rw [drain_eq, cut_prefix_ends g s hg, ← drain_eq]

theorem drain_layout {m : Nat} (hm : m ≤ maxHeader) {w : Bytes} {fs : List Bytes} {r : Bytes}
    (h : Layout w fs r) (hf : ∀ f ∈ fs, Message m f) :
    drain w = match drain r with
      | .error e => .error e
      | .ok (gs, r') => .ok (fs ++ gs, r') := by
  induction h with
  | done g r hg =>
    rw [drain_prefix_ends g r hg]
    cases drain r with
    | error e => rfl
    | ok p => rfl
  | cons g f w fs r hg _ ih =>
    rw [drain_eq, cut_message hm g f w hg (hf f (by simp))]
    simp only []
    rw [ih fun x hx => hf x (by simp [hx])]
    cases drain r with
    | error e => rfl
    | ok p => rfl

theorem drain_pending (r : Bytes) (h : Pending r) : drain r = .ok ([], r) := by
  rw [drain_eq, cut_pending r h]

/-- Draining what is already there first changes nothing. -/
theorem drain_append {buf : Bytes} {fs : List Bytes} {r : Bytes} (h : drain buf = .ok (fs, r))
    (t : Bytes) : drain (buf ++ t) = match drain (r ++ t) with
      | .error e => .error e
      | .ok (gs, r') => .ok (fs ++ gs, r') := by
  obtain ⟨h1, h2, h0⟩ := drain_sound buf fs r h
  clear h0
  have h3 : Layout (buf ++ t) fs (r ++ t) := by
    clear h h2
    induction h1 with
    | done g r hg => rw [List.append_assoc]; exact .done g _ hg
    | cons g f w fs r hg _ ih =>
      rw [List.append_assoc]; exact .cons g f _ fs _ hg ih
  exact drain_layout (Nat.le_refl _) h3 h2

theorem pending_length {r : Bytes} (h : Pending r) : r.length < 65536 + 4 + 10485760 := by
  rcases h.short with ⟨_, h2⟩ | ⟨head, body, n, rfl, _, h2, _, h4, h5⟩
  · unfold maxHeader at h2; omega
  · unfold maxHeader at h2; unfold maxBody at h4; simp; omega

/-- A framing error other than "headers not ended yet" stays whatever follows. -/
theorem drain_error_append (buf : Bytes) : ∀ e, drain buf = .error e → e ≠ .unterminated →
    ∀ t, drain (buf ++ t) = .error e := by
  induction buf using drain_induct with
  | h buf ih =>
    intro e h he t
    rw [drain_eq] at h
    cases hc : cut buf with
    | wait r => rw [hc] at h; simp at h
    | fail e' =>
      rw [hc] at h
      simp only [Except.error.injEq] at h
      subst h
      rcases (cut_fail_iff buf e').1 hc with ⟨h, _⟩ | h
      · exact absurd h he
      · rw [drain_eq, cut_bad_append t h]
    | frame f w =>
      rw [hc] at h
      simp only [] at h
      cases hd : drain w with
      | ok p => rw [hd] at h; simp at h
      | error e' =>
        rw [hd] at h
        simp only [Except.error.injEq] at h
        subst h
        rw [drain_eq, cut_frame_append t hc]
        simp only []
        rw [ih f w hc _ hd he t]

/-! ## Sessions -/

/-- What is true of a session fed the non-empty reads `chunks`. -/
def Reads (w : Bytes) (s : Session) : Prop :=
  (s.closed = none ∧ drain w = .ok (s.out, s.buf)) ∨
  ∃ e u c v, s.closed = some (.framing e) ∧ w = u ++ c ++ v ∧ drain (u ++ c) = .error e ∧
    drain u = .ok (s.out, s.buf)

theorem reads_read {w : Bytes} {s : Session} (h : Reads w s) (c : Bytes) (hc : c ≠ []) :
    Reads (w ++ c) (s.read c) := by
  rcases h with ⟨h1, h2⟩ | ⟨e, u, c', v, h1, h2, h3, h4⟩
  · have hp := pending_length (drain_sound _ _ _ h2).2.2
    unfold Session.read
    rw [h1]
    simp only []
    rw [if_neg (by unfold maxBuffer; omega), if_neg hc]
    have ha := drain_append h2 c
    cases hd : drain (s.buf ++ c) with
    | error e =>
      rw [hd] at ha
      exact Or.inr ⟨e, w, c, [], rfl, by simp, ha, h2⟩
    | ok p =>
      rw [hd] at ha
      exact Or.inl ⟨rfl, ha⟩
  · unfold Session.read
    rw [h1]
    exact Or.inr ⟨e, u, c', v ++ c, h1, by rw [h2]; simp, h3, h4⟩

theorem reads_foldl : ∀ (cs : List Bytes) (w : Bytes) (s : Session), (∀ c ∈ cs, c ≠ []) →
    Reads w s → Reads (w ++ cs.flatten) (cs.foldl Session.read s)
  | [], w, s, _, h => by simpa using h
  | c :: cs, w, s, hc, h => by
    have := reads_foldl cs (w ++ c) (s.read c) (fun x hx => hc x (by simp [hx]))
      (reads_read h c (hc c (by simp)))
    simpa using this

theorem reads_session {cs : List Bytes} {w : Bytes} (h : Delivers cs w) : Reads w (session cs) := by
  have := reads_foldl cs [] {} h.2 (Or.inl ⟨rfl, by decide⟩)
  rw [List.nil_append, h.1] at this
  exact this

theorem layout_append {w : Bytes} {fs : List Bytes} {r : Bytes} (h : Layout w fs r) (t : Bytes) :
    Layout (w ++ t) fs (r ++ t) := by
  induction h with
  | done g r hg => rw [List.append_assoc]; exact .done g _ hg
  | cons g f w fs r hg _ ih =>
    rw [List.append_assoc]; exact .cons g f _ fs _ hg ih

theorem session_layout {cs : List Bytes} {w : Bytes} (h : Delivers cs w) :
    ∃ rest, Layout w (session cs).out rest ∧ (∀ f ∈ (session cs).out, Message maxHeader f) ∧
      ((session cs).closed = none → rest = (session cs).buf) := by
  rcases reads_session h with ⟨h1, h2⟩ | ⟨e, u, c, v, h1, h2, h3, h4⟩
  · obtain ⟨ha, hb, _⟩ := drain_sound _ _ _ h2
    exact ⟨_, ha, hb, fun _ => rfl⟩
  · obtain ⟨ha, hb, _⟩ := drain_sound _ _ _ h4
    refine ⟨(session cs).buf ++ (c ++ v), ?_, hb, fun hn => by rw [h1] at hn; simp at hn⟩
    rw [h2, List.append_assoc]
    exact layout_append ha (c ++ v)

theorem layout_prefix {w : Bytes} {fs : List Bytes} {r : Bytes} (h : Layout w fs r)
    (hm : ∀ f ∈ fs, Message maxHeader f) : ∀ {fs' r'}, Layout w fs' r' →
    (∀ f ∈ fs', Message maxHeader f) → fs <+: fs' ∨ fs' <+: fs := by
  induction h with
  | done g r hg => intro fs' _ _ _; exact Or.inl (List.nil_prefix)
  | cons g f w fs r hg hl ih =>
    intro fs' r' h' hm'
    have hc := cut_message (Nat.le_refl _) g f w hg (hm f (by simp))
    generalize hw : g ++ f ++ w = w0 at *
    cases h' with
    | done g' r' _ => exact Or.inr List.nil_prefix
    | cons g' f' w' fs' _ hg' hl' =>
      have hc' := cut_message (Nat.le_refl _) g' f' w' hg' (hm' f' (by simp))
      rw [hc] at hc'
      simp only [Cut.frame.injEq] at hc'
      obtain ⟨rfl, rfl⟩ := hc'
      rcases ih (fun x hx => hm x (by simp [hx])) hl' (fun x hx => hm' x (by simp [hx])) with h | h
      · exact Or.inl (List.prefix_cons_inj _ |>.2 h)
      · exact Or.inr (List.prefix_cons_inj _ |>.2 h)

/-- The messages cut off cannot go past a block the code refuses. -/
theorem layout_stop {w : Bytes} {fs : List Bytes} {q : Bytes} {e : FrameErr} (hl : Layout w fs q)
    (hf : ∀ f ∈ fs, Message maxHeader f) (hcut : cut q = .fail e) : ∀ {out r}, Layout w out r →
    (∀ f ∈ out, Message maxHeader f) → out <+: fs := by
  induction hl with
  | done g q hg =>
    intro out r h1 h2
    generalize hw : g ++ q = w0 at *
    cases h1 with
    | done g' r' _ => exact List.nil_prefix
    | cons g' f' w' fs' r' hg' hl' =>
      exfalso
      have hc' := cut_message (Nat.le_refl _) g' f' w' hg' (h2 f' (by simp))
      rw [← hw, cut_prefix_ends g q hg, hcut] at hc'
      simp at hc'
  | cons g f w fs q hg _ ih =>
    intro out r h1 h2
    have hc := cut_message (Nat.le_refl _) g f w hg (hf f (by simp))
    generalize hw : g ++ f ++ w = w0 at *
    cases h1 with
    | done g' r' _ => exact List.nil_prefix
    | cons g' f' w' fs' r' hg' hl' =>
      have hc' := cut_message (Nat.le_refl _) g' f' w' hg' (h2 f' (by simp))
      rw [hc] at hc'
      simp only [Cut.frame.injEq] at hc'
      obtain ⟨rfl, rfl⟩ := hc'
      exact List.prefix_cons_inj _ |>.2
        (ih (fun x hx => hf x (by simp [hx])) hcut hl' (fun x hx => h2 x (by simp [hx])))

/-! ## When the split cannot matter -/

theorem findBlank_none {r : Bytes} (h : ∀ a c, r ≠ a ++ blank ++ c) : findBlank r = none := by
  cases hf : findBlank r with
  | none => rfl
  | some p =>
    obtain ⟨⟨c, h1⟩, _⟩ := findBlank_spec r p hf
    exact absurd h1 (h _ _)

theorem pending_of_tail {r : Bytes} (h : Tail r) : Pending r := by
  refine ⟨h.1, ?_⟩
  rcases h.2 with ⟨h1, h2⟩ | ⟨head, body, n, h1, h2, h3, h4, h5, h6⟩
  · exact Or.inl ⟨findBlank_none h2, by unfold maxHeader; omega⟩
  · exact Or.inr ⟨head, body, n, h1, h2, by unfold maxHeader; omega, h4, by unfold maxBody; omega, h6⟩

/-- A stream none of whose prefixes runs into the unterminated-header limit. -/
def Calm (w : Bytes) : Prop := ∀ u v, w = u ++ v → ∀ e, drain u ≠ .error e

theorem prefix_cases {a b u v : Bytes} (h : a ++ b = u ++ v) :
    (∃ t, u = a ++ t ∧ b = t ++ v) ∨ (∃ t, t ≠ [] ∧ a = u ++ t ∧ v = t ++ b) := by
  rcases List.append_eq_append_iff.1 h with ⟨t, h1, h2⟩ | ⟨t, h1, h2⟩
  · exact Or.inl ⟨t, h1, h2⟩
  · by_cases ht : t = []
    · subst ht
      refine Or.inl ⟨[], by simpa using h1.symm, by simpa using h2.symm⟩
    · exact Or.inr ⟨t, ht, h1, h2⟩

theorem lineEnds_left {a b : Bytes} (h : LineEnds (a ++ b)) : LineEnds a :=
  fun x hx => h x (by simp [hx])

theorem drain_lineEnds {g : Bytes} (h : LineEnds g) : drain g = .ok ([], []) := by
  have := drain_prefix_ends g [] h
  rw [List.append_nil] at this
  rw [this]
  decide

/-- A proper prefix of a message whose header block is below the limit leaves the loop waiting. -/
theorem message_prefix_pending {f u t : Bytes} {m : Nat} (hm : m + 3 ≤ maxHeader)
    (hf : Message m f) (h : f = u ++ t) (ht : t ≠ []) : Pending u := by
  obtain ⟨head, body, rfl, h1, h2, h3, h4⟩ := hf
  obtain ⟨⟨b, hd, hb, hb1, hb2⟩, hmin⟩ := id h1
  have hstart : ∀ x, u.head? = some x → x ≠ CR ∧ x ≠ LF := by
    intro x hx
    cases u with
    | nil => simp at hx
    | cons y u =>
      rw [hb] at h
      simp at h hx
      rw [← hx, ← h.1]; exact ⟨hb1, hb2⟩
  refine ⟨hstart, ?_⟩
  rcases prefix_cases h with ⟨s, h5, h6⟩ | ⟨s, hs, h5, h6⟩
  · refine Or.inr ⟨head, s, body.length, h5, h1, by omega, h3, by unfold maxBody; omega, ?_⟩
    rw [h6]
    have : 0 < t.length := List.length_pos_iff.2 ht
    simp; omega
  · have hlen := congrArg List.length h5
    have hspos : 0 < s.length := List.length_pos_iff.2 hs
    simp at hlen
    refine Or.inl ⟨findBlank_none ?_, by omega⟩
    intro a c hac
    have := hmin a (c ++ s) (by rw [h5, hac]; simp)
    rw [hac] at hlen
    simp at hlen
    omega

theorem calm_layout {m : Nat} (hm : m + 3 ≤ maxHeader) {w : Bytes} {fs : List Bytes} {r : Bytes}
    (h : Layout w fs r) (hf : ∀ f ∈ fs, Message m f) (hr : Calm r) : Calm w := by
  induction h with
  | done g r hg =>
    intro u v huv e
    rcases prefix_cases huv with ⟨t, rfl, h2⟩ | ⟨t, _, h2, _⟩
    · rw [drain_prefix_ends g t hg]
      exact hr t v h2 e
    · rw [drain_lineEnds (lineEnds_left (h2 ▸ hg))]
      simp
  | cons g f w fs r hg _ ih =>
    have hfm := hf f (by simp)
    intro u v huv e
    rw [List.append_assoc] at huv
    rcases prefix_cases huv with ⟨t, rfl, h2⟩ | ⟨t, _, h2, _⟩
    · rw [drain_prefix_ends g t hg]
      rcases prefix_cases h2 with ⟨s, rfl, h3⟩ | ⟨s, hs, h3, _⟩
      · have hc := cut_message (m := m) (by omega) [] f s (by simp [LineEnds]) hfm
        rw [List.nil_append] at hc
        rw [drain_eq, hc]
        simp only []
        have := ih (fun x hx => hf x (by simp [hx])) hr s v h3
        cases hd : drain s with
        | error e' => exact absurd hd (this e')
        | ok p => simp
      · rw [drain_pending t (message_prefix_pending hm hfm h3 hs)]
        simp
    · rw [drain_lineEnds (lineEnds_left (h2 ▸ hg))]
      simp

theorem calm_tail {r : Bytes} (h : Tail r) : Calm r := by
  intro u v huv e
  have hu : Pending u := by
    have hstart : ∀ x, u.head? = some x → x ≠ CR ∧ x ≠ LF := by
      intro x hx
      refine h.1 x ?_
      rw [huv, List.head?_append, hx]; rfl
    refine ⟨hstart, ?_⟩
    rcases h.2 with ⟨h1, h2⟩ | ⟨head, body, n, h1, h2, h3, h4, h5, h6⟩
    · refine Or.inl ⟨findBlank_none ?_, ?_⟩
      · intro a c hac
        exact h2 a (c ++ v) (by rw [huv, hac]; simp)
      · rw [huv] at h1; simp at h1; unfold maxHeader; omega
    · rw [h1] at huv
      rcases prefix_cases huv with ⟨s, h7, h8⟩ | ⟨s, hs, h7, h8⟩
      · refine Or.inr ⟨head, s, n, h7, h2, by unfold maxHeader; omega, h4, by unfold maxBody; omega, ?_⟩
        rw [h8] at h6; simp at h6; omega
      · have hlen := congrArg List.length h7
        have hspos : 0 < s.length := List.length_pos_iff.2 hs
        simp at hlen
        refine Or.inl ⟨findBlank_none ?_, by unfold maxHeader; omega⟩
        intro a c hac
        have := h2.2 a (c ++ s) (by rw [h7, hac]; simp)
        rw [hac] at hlen
        simp at hlen
        omega
  rw [drain_pending u hu]
  simp

theorem session_calm {w : Bytes} (h : Calm w) {fs : List Bytes} {r : Bytes}
    (hd : drain w = .ok (fs, r)) {cs : List Bytes} (hcs : Delivers cs w) :
    session cs = { buf := r, out := fs, closed := none } := by
  rcases reads_session hcs with ⟨h1, h2⟩ | ⟨e, u, c, v, h1, h2, h3, h4⟩
  · rw [hd] at h2
    simp only [Except.ok.injEq, Prod.mk.injEq] at h2
    cases hs : session cs
    rw [hs] at h1 h2
    simp_all
  · exact absurd h3 (h _ _ h2 e)

end Siphon.Transport
