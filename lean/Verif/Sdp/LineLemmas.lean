import Verif.Sdp.Grammar
import Verif.Sdp.Lemmas
set_option linter.unusedSimpArgs false
/-!
# Lemmas: reading one line of a description
-/
namespace Siphon.Sdp
open Siphon.TextSpec Spec

/-! ## Combinators -/

theorem tag_iff (t s r : Str) : tag t s = some r ↔ s = t ++ r := by
  unfold tag stripPrefix
  constructor
  · intro h
    split at h
    · rename_i hp
      obtain ⟨x, hx⟩ := List.isPrefixOf_iff_prefix.mp hp
      simp only [Option.some.injEq] at h
      rw [← hx, List.drop_left] at h
      rw [← hx, h]
    · cases h
  · rintro rfl
    rw [if_pos (List.isPrefixOf_iff_prefix.mpr (List.prefix_append _ _)), List.drop_left]

theorem tag_none_iff (t s : Str) : tag t s = none ↔ ¬ t <+: s := by
  unfold tag stripPrefix
  split
  · rename_i hp
    simp [List.isPrefixOf_iff_prefix.mp hp]
  · rename_i hp
    simp only [true_iff]
    intro h
    exact hp (List.isPrefixOf_iff_prefix.mpr h)

theorem takeTill_iff (p : Char → Bool) (s x r : Str) : takeTill p s = (x, r) ↔
    s = x ++ r ∧ (∀ c ∈ x, p c = false) ∧ ∀ c, r.head? = some c → p c = true := by
  unfold takeTill
  induction s generalizing x with
  | nil =>
    simp only [List.takeWhile_nil, List.dropWhile_nil, Prod.mk.injEq]
    constructor
    · rintro ⟨rfl, rfl⟩; simp
    · rintro ⟨h, _⟩
      obtain ⟨rfl, rfl⟩ := List.append_eq_nil_iff.mp h.symm
      exact ⟨rfl, rfl⟩
  | cons c s ih =>
    rw [List.takeWhile_cons, List.dropWhile_cons]
    cases hp : p c with
    | true =>
      simp only [Bool.not_true, Bool.false_eq_true, if_false, Prod.mk.injEq]
      constructor
      · rintro ⟨rfl, rfl⟩
        refine ⟨rfl, by simp, ?_⟩
        intro d hd
        simp only [List.head?_cons, Option.some.injEq] at hd
        rw [← hd]; exact hp
      · rintro ⟨h, hx, _⟩
        cases x with
        | nil => exact ⟨rfl, h⟩
        | cons d x =>
          simp only [List.cons_append, List.cons.injEq] at h
          have := hx d List.mem_cons_self
          rw [← h.1, hp] at this
          cases this
    | false =>
      simp only [Bool.not_false, if_true, Prod.mk.injEq]
      cases x with
      | nil =>
        constructor
        · rintro ⟨h, _⟩; cases h
        · rintro ⟨h, _, hr⟩
          simp only [List.nil_append] at h
          have := hr c (by rw [← h]; rfl)
          rw [hp] at this
          cases this
      | cons d x =>
        have := ih x
        simp only [Prod.mk.injEq] at this
        simp only [List.cons.injEq, List.cons_append]
        constructor
        · rintro ⟨⟨rfl, h1⟩, h2⟩
          obtain ⟨e1, e2, e3⟩ := this.mp ⟨h1, h2⟩
          refine ⟨⟨rfl, e1⟩, ?_, e3⟩
          intro d hd
          rcases List.mem_cons.mp hd with rfl | hd
          · exact hp
          · exact e2 d hd
        · rintro ⟨⟨rfl, h1⟩, h2, h3⟩
          obtain ⟨e1, e2⟩ := this.mpr ⟨h1, fun d hd => h2 d (List.mem_cons_of_mem _ hd), h3⟩
          exact ⟨⟨rfl, e1⟩, e2⟩

theorem takeTill_split (p : Char → Bool) (s : Str) : s = (takeTill p s).1 ++ (takeTill p s).2 ∧
    (∀ c ∈ (takeTill p s).1, p c = false) ∧ ∀ c, (takeTill p s).2.head? = some c → p c = true :=
  (takeTill_iff p s _ _).mp rfl

theorem isBlank_iff (c : Char) : isBlank c = true ↔ c = ' ' ∨ c = '\t' := by simp [isBlank]

theorem isEol_iff (c : Char) : isEol c = true ↔ c = '\r' ∨ c = '\n' := by simp [isEol]

theorem isGap_iff (c : Char) : isGap c = true ↔ c = ' ' ∨ c = '\r' ∨ c = '\n' := by simp [isGap, or_assoc]

theorem noLead_iff (s : Str) : NoLead s ↔ ∀ c, s.head? = some c → isBlank c = false := by
  unfold NoLead
  cases s with
  | nil => simp
  | cons c s =>
    simp only [List.head?_cons, Option.some.injEq, ne_eq]
    constructor
    · rintro ⟨h1, h2⟩ d rfl
      cases hb : isBlank c with
      | false => rfl
      | true =>
        rcases (isBlank_iff c).mp hb with h | h
        · exact absurd h h1
        · exact absurd h h2
    · intro h
      have := h c rfl
      constructor <;> (rintro rfl; revert this; decide)

theorem oneLine_iff (s : Str) : OneLine s ↔ ∀ c ∈ s, isEol c = false := by
  unfold OneLine
  constructor
  · rintro ⟨h1, h2⟩ c hc
    cases hb : isEol c with
    | false => rfl
    | true =>
      rcases (isEol_iff c).mp hb with rfl | rfl
      · exact absurd hc h1
      · exact absurd hc h2
  · intro h
    constructor
    · intro hc; have := h _ hc; revert this; decide
    · intro hc; have := h _ hc; revert this; decide

theorem gapFree_iff (s : Str) : (' ' ∉ s ∧ OneLine s) ↔ ∀ c ∈ s, isGap c = false := by
  rw [oneLine_iff]
  constructor
  · rintro ⟨h1, h2⟩ c hc
    have := h2 c hc
    cases hb : isGap c with
    | false => rfl
    | true =>
      rcases (isGap_iff c).mp hb with rfl | rfl | rfl
      · exact absurd hc h1
      · revert this; decide
      · revert this; decide
  · intro h
    constructor
    · intro hc; have := h _ hc; revert this; decide
    · intro c hc
      have := h c hc
      cases hb : isEol c with
      | false => rfl
      | true =>
        rcases (isEol_iff c).mp hb with rfl | rfl <;> (revert this; decide)

theorem eolHead_iff (r : Str) : (∀ c, r.head? = some c → isEol c = true) ↔ ∀ c, r.head? = some c → c = '\r' ∨ c = '\n' := by
  simp only [isEol_iff]

theorem eol_not_blank {r : Str} (h : ∀ c, r.head? = some c → c = '\r' ∨ c = '\n') : NoLead r := by
  rw [noLead_iff]
  intro c hc
  rcases h c hc with rfl | rfl <;> decide

theorem noLead_append {a r : Str} (ha : NoLead a) (hr : NoLead r) : NoLead (a ++ r) := by
  cases a with
  | nil => exact hr
  | cons c a => exact ha

theorem noLead_left {a r : Str} (h : NoLead (a ++ r)) : NoLead a := by
  cases a with
  | nil => exact ⟨by simp, by simp⟩
  | cons c a => exact h

theorem space1_iff (s r : Str) : space1 s = some r ↔ ∃ b, s = b ++ r ∧ Blanks b ∧ NoLead r := by
  cases s with
  | nil =>
    simp only [space1]
    constructor
    · intro h; cases h
    · rintro ⟨b, h, ⟨hb, _⟩, _⟩
      exact absurd (List.append_eq_nil_iff.mp h.symm).1 hb
  | cons c s =>
    simp only [space1]
    have key : s.dropWhile isBlank = (takeTill (fun c => !isBlank c) s).2 := by
      unfold takeTill; simp
    obtain ⟨k1, k2, k3⟩ := takeTill_split (fun c => !isBlank c) s
    constructor
    · intro h
      split at h
      · rename_i hb
        simp only [Option.some.injEq] at h
        rw [key] at h
        rw [h] at k1 k3
        refine ⟨c :: (takeTill (fun c => !isBlank c) s).1, by rw [List.cons_append, ← k1], ⟨by simp, ?_⟩, ?_⟩
        · intro d hd
          rw [← isBlank_iff]
          rcases List.mem_cons.mp hd with rfl | hd
          · exact hb
          · simpa using k2 d hd
        · rw [noLead_iff]
          intro d hd
          simpa using k3 d hd
      · cases h
    · rintro ⟨b, h, ⟨hb, hall⟩, hr⟩
      cases b with
      | nil => exact absurd rfl hb
      | cons d b =>
        simp only [List.cons_append, List.cons.injEq] at h
        obtain ⟨rfl, h⟩ := h
        rw [if_pos ((isBlank_iff c).mpr (hall c List.mem_cons_self)), key]
        have := (takeTill_iff (fun c => !isBlank c) s b r).mpr ⟨h, ?_, ?_⟩
        · rw [this]
        · intro d hd
          simp [(isBlank_iff d).mpr (hall d (List.mem_cons_of_mem _ hd))]
        · intro d hd
          simp [(noLead_iff r).mp hr d hd]

theorem decDigits_digits {d : Str} {n : Nat} (h : DecDigits d n) : ∀ c ∈ d, isDigit c = true := by
  induction h with
  | one h1 h2 => intro c hc; simp only [List.mem_singleton] at hc; subst hc; exact (isDigit_iff _).mpr ⟨h1, h2⟩
  | snoc _ h1 h2 ih =>
    intro c hc
    rcases List.mem_append.mp hc with hc | hc
    · exact ih c hc
    · simp only [List.mem_singleton] at hc; subst hc; exact (isDigit_iff _).mpr ⟨h1, h2⟩

theorem number_iff (max : Nat) (s : Str) (n : Nat) (r : Str) : number max s = some (n, r) ↔
    ∃ d, s = d ++ r ∧ Number max d n ∧ ∀ c, r.head? = some c → isDigit c = false := by
  unfold number
  have hk : s.takeWhile isDigit = (takeTill (fun c => !isDigit c) s).1 ∧ s.dropWhile isDigit = (takeTill (fun c => !isDigit c) s).2 := by
    unfold takeTill; simp
  obtain ⟨k1, k2, k3⟩ := takeTill_split (fun c => !isDigit c) s
  rw [hk.1, hk.2]
  constructor
  · intro h
    cases hd : (takeTill (fun c => !isDigit c) s).1 with
    | nil => rw [hd] at h; cases h
    | cons c cs =>
      rw [hd] at h k1 k2
      simp only at h
      cases hp : parseDec max (c :: cs) with
      | none => rw [hp] at h; cases h
      | some m =>
        rw [hp] at h
        simp only [Option.map_some, Option.some.injEq, Prod.mk.injEq] at h
        obtain ⟨rfl, rfl⟩ := h
        obtain ⟨e1, e2⟩ := (parseDec_iff _ _ _).mp hp
        refine ⟨c :: cs, k1, ⟨?_, e2⟩, fun c hc => by simpa using k3 c hc⟩
        rcases e1 with e1 | ⟨t, e1, _⟩
        · exact e1
        · simp only [List.cons.injEq] at e1
          have := k2 c List.mem_cons_self
          rw [e1.1] at this
          exact absurd this (by decide)
  · rintro ⟨d, rfl, ⟨h1, h2⟩, h3⟩
    have := (takeTill_iff (fun c => !isDigit c) (d ++ r) d r).mpr ⟨rfl, ?_, ?_⟩
    · rw [this]
      simp only
      cases d with
      | nil => exact absurd rfl (decDigits_ne h1)
      | cons c cs =>
        simp only
        rw [(parseDec_iff _ _ _).mpr ⟨Or.inl h1, h2⟩]
        rfl
    · intro c hc; simp [decDigits_digits h1 c hc]
    · intro c hc; simp [h3 c hc]

theorem digit_not_blank {d : Str} {n : Nat} (h : DecDigits d n) (r : Str) : NoLead (d ++ r) := by
  rw [noLead_iff]
  intro c hc
  cases d with
  | nil => exact absurd rfl (decDigits_ne h)
  | cons e d =>
    simp only [List.cons_append, List.head?_cons, Option.some.injEq] at hc
    subst hc
    have := decDigits_digits h e List.mem_cons_self
    cases hb : isBlank e with
    | false => rfl
    | true => rcases (isBlank_iff e).mp hb with rfl | rfl <;> (revert this; decide)

theorem word_iff (s u r : Str) : word s = some (u, r) ↔ ∃ b, s = u ++ (b ++ r) ∧ ' ' ∉ u ∧ Spaces b ∧ NoLead r := by
  unfold word
  obtain ⟨k1, k2, k3⟩ := takeTill_split (fun c => c == ' ') s
  constructor
  · intro h
    cases hs : space1 (takeTill (fun c => c == ' ') s).2 with
    | none => rw [hs] at h; cases h
    | some r' =>
      rw [hs] at h
      simp only [Option.map_some, Option.some.injEq, Prod.mk.injEq] at h
      obtain ⟨rfl, rfl⟩ := h
      obtain ⟨b, e1, e2, e3⟩ := (space1_iff _ _).mp hs
      refine ⟨b, by rw [← e1]; exact k1, ?_, ⟨e2, ?_⟩, e3⟩
      · intro hc; have := k2 _ hc; revert this; decide
      · cases b with
        | nil => exact absurd rfl e2.1
        | cons c b =>
          have := k3 c (by rw [e1]; rfl)
          simp only [beq_iff_eq] at this
          rw [this]
          rfl
  · rintro ⟨b, rfl, h1, ⟨h2, h3⟩, h4⟩
    have := (takeTill_iff (fun c => c == ' ') (u ++ (b ++ r)) u (b ++ r)).mpr ⟨rfl, ?_, ?_⟩
    · rw [this]
      simp only
      rw [(space1_iff _ _).mpr ⟨b, rfl, h2, h4⟩]
      rfl
    · intro c hc
      simp only [beq_eq_false_iff_ne, ne_eq]
      rintro rfl
      exact h1 hc
    · intro c hc
      cases b with
      | nil => exact absurd rfl h2.1
      | cons d b =>
        simp only [List.head?_cons, Option.some.injEq, List.cons_append] at hc h3
        simp [← hc, h3]

theorem rest_iff (s t r : Str) : restOfLine s = (t, r) ↔ ∃ x, s = x ++ r ∧ OneLine x ∧ Strips isWs x t ∧
    ∀ c, r.head? = some c → c = '\r' ∨ c = '\n' := by
  unfold restOfLine
  simp only [Prod.mk.injEq, oneLine_iff, strips_trim, ← eolHead_iff]
  obtain ⟨k1, k2, k3⟩ := takeTill_split isEol s
  constructor
  · rintro ⟨rfl, rfl⟩
    exact ⟨_, k1, k2, rfl, k3⟩
  · rintro ⟨x, h1, h2, h3, h4⟩
    have := (takeTill_iff isEol s x r).mpr ⟨h1, h2, h4⟩
    rw [this]
    exact ⟨h3.symm, rfl⟩

theorem restEq_iff (s x r : Str) : takeTill isEol s = (x, r) ↔ s = x ++ r ∧ OneLine x ∧
    ∀ c, r.head? = some c → c = '\r' ∨ c = '\n' := by
  rw [takeTill_iff, oneLine_iff, eolHead_iff]

/-! ## Addresses -/

theorem parseAddress_iff (s : Str) (six : Bool) (addr r : Str) : parseAddress s = some ((six, addr), r) ↔
    ∃ a, s = a ++ r ∧ AddressText six addr a ∧ ∀ c, r.head? = some c → c = '\r' ∨ c = '\n' := by
  constructor
  · intro h
    unfold parseAddress at h
    cases h1 : tag "IN".toList s with
    | none => rw [h1] at h; cases h
    | some s1 =>
      rw [h1] at h
      simp only at h
      rw [tag_iff] at h1
      cases h2 : space1 s1 with
      | none => rw [h2] at h; cases h
      | some s2 =>
        rw [h2] at h
        simp only at h
        obtain ⟨b, e1, e2, e3⟩ := (space1_iff _ _).mp h2
        cases h3 : tag "IP4".toList s2 with
        | some s3 =>
          rw [h3] at h
          simp only at h
          rw [tag_iff] at h3
          cases h4 : space1 s3 with
          | none => rw [h4] at h; cases h
          | some s4 =>
            rw [h4] at h
            simp only [Option.some.injEq, Prod.mk.injEq] at h
            obtain ⟨⟨rfl, h5⟩, h6⟩ := h
            obtain ⟨b', e4, e5, e6⟩ := (space1_iff _ _).mp h4
            obtain ⟨x, e7, e8, e9, e10⟩ := (rest_iff s4 addr r).mp (by rw [← h5, ← h6])
            refine ⟨"IN".toList ++ (b ++ ("IP4".toList ++ (b' ++ x))), ?_, .ip4 e2 e5 e8 (noLead_left (by rw [← e7]; exact e6)) e9, e10⟩
            rw [h1, e1, h3, e4, e7]
            simp only [List.append_assoc]
        | none =>
          rw [h3] at h
          simp only at h
          cases h3' : tag "IP6".toList s2 with
          | none => rw [h3'] at h; cases h
          | some s3 =>
          rw [h3'] at h
          simp only at h
          rw [tag_iff] at h3'
          cases h4 : space1 s3 with
          | none => rw [h4] at h; cases h
          | some s4 =>
            rw [h4] at h
            simp only [Option.some.injEq, Prod.mk.injEq] at h
            obtain ⟨⟨rfl, h5⟩, h6⟩ := h
            obtain ⟨b', e4, e5, e6⟩ := (space1_iff _ _).mp h4
            obtain ⟨x, e7, e8, e9, e10⟩ := (rest_iff s4 addr r).mp (by rw [← h5, ← h6])
            refine ⟨"IN".toList ++ (b ++ ("IP6".toList ++ (b' ++ x))), ?_, .ip6 e2 e5 e8 (noLead_left (by rw [← e7]; exact e6)) e9, e10⟩
            rw [h1, e1, h3', e4, e7]
            simp only [List.append_assoc]
  · rintro ⟨a, rfl, ha, hr⟩
    unfold parseAddress
    cases ha with
    | @ip4 b b' a _ hb hb' hl hn hs =>
      simp only [List.append_assoc]
      rw [(tag_iff _ _ _).mpr rfl]
      simp only
      rw [(space1_iff _ ("IP4".toList ++ (b' ++ (a ++ r)))).mpr ⟨b, rfl, hb, ⟨by simp, by simp⟩⟩]
      simp only
      rw [(tag_iff _ _ _).mpr rfl]
      simp only
      rw [(space1_iff _ (a ++ r)).mpr ⟨b', rfl, hb', noLead_append hn (eol_not_blank hr)⟩]
      simp only
      rw [(rest_iff _ _ _).mpr ⟨a, rfl, hl, hs, hr⟩]
    | @ip6 b b' a _ hb hb' hl hn hs =>
      simp only [List.append_assoc]
      rw [(tag_iff _ _ _).mpr rfl]
      simp only
      rw [(space1_iff _ ("IP6".toList ++ (b' ++ (a ++ r)))).mpr ⟨b, rfl, hb, ⟨by simp, by simp⟩⟩]
      simp only
      rw [(tag_none_iff "IP4".toList _).mpr (by simp), (tag_iff _ _ _).mpr rfl]
      simp only
      rw [(space1_iff _ (a ++ r)).mpr ⟨b', rfl, hb', noLead_append hn (eol_not_blank hr)⟩]
      simp only
      rw [(rest_iff _ _ _).mpr ⟨a, rfl, hl, hs, hr⟩]

theorem addressText_noLead {six : Bool} {addr a : Str} (h : AddressText six addr a) (r : Str) : NoLead (a ++ r) := by
  cases h <;> exact ⟨by simp, by simp⟩

theorem parseOrigin_iff (s : Str) (o : Origin) (r : Str) : parseOrigin s = some (o, r) ↔
    ∃ u b1 i b2 v b3 a, s = u ++ (b1 ++ (i ++ (b2 ++ (v ++ (b3 ++ (a ++ r)))))) ∧ ' ' ∉ u ∧ Spaces b1 ∧ i ≠ [] ∧ ' ' ∉ i ∧
      NoLead i ∧ Spaces b2 ∧ v ≠ [] ∧ ' ' ∉ v ∧ NoLead v ∧ Spaces b3 ∧ AddressText o.ipv6 o.address a ∧
      o.username = u ∧ o.sessionId = i ∧ o.sessionVersion = v ∧ ∀ c, r.head? = some c → c = '\r' ∨ c = '\n' := by
  have hne : ∀ {i b t : Str}, NoLead (i ++ (b ++ t)) → Spaces b → i ≠ [] := by
    intro i b t h hb hi
    subst hi
    obtain ⟨⟨h1, _⟩, h2⟩ := hb
    cases b with
    | nil => exact h1 rfl
    | cons c b => exact h.1 (by simpa using h2)
  constructor
  · intro h
    unfold parseOrigin at h
    cases h1 : word s with
    | none => rw [h1] at h; cases h
    | some p =>
      obtain ⟨u, s1⟩ := p
      rw [h1] at h
      simp only at h
      obtain ⟨b1, e1, e2, e3, e4⟩ := (word_iff _ _ _).mp h1
      cases h2 : word s1 with
      | none => rw [h2] at h; cases h
      | some p =>
        obtain ⟨i, s2⟩ := p
        rw [h2] at h
        simp only at h
        obtain ⟨b2, f1, f2, f3, f4⟩ := (word_iff _ _ _).mp h2
        cases h3 : word s2 with
        | none => rw [h3] at h; cases h
        | some p =>
          obtain ⟨v, s3⟩ := p
          rw [h3] at h
          simp only at h
          obtain ⟨b3, g1, g2, g3, g4⟩ := (word_iff _ _ _).mp h3
          cases h4 : parseAddress s3 with
          | none => rw [h4] at h; cases h
          | some p =>
            obtain ⟨⟨six, addr⟩, r'⟩ := p
            rw [h4] at h
            simp only [Option.map_some, Option.some.injEq, Prod.mk.injEq] at h
            obtain ⟨rfl, rfl⟩ := h
            obtain ⟨a, k1, k2, k3⟩ := (parseAddress_iff _ _ _ _).mp h4
            subst k1 g1 f1 e1
            exact ⟨u, b1, i, b2, v, b3, a, rfl, e2, e3, hne e4 f3, f2, noLead_left e4, f3, hne f4 g3, g2,
              noLead_left f4, g3, k2, rfl, rfl, rfl, k3⟩
  · rintro ⟨u, b1, i, b2, v, b3, a, rfl, c1, c2, c3, c4, c5, c6, c7, c8, c9, c10, c11, rfl, rfl, rfl, c12⟩
    have nl : ∀ {x t : Str}, x ≠ [] → NoLead x → NoLead (x ++ t) := by
      intro x t hx h
      cases x with
      | nil => exact absurd rfl hx
      | cons c x => exact h
    unfold parseOrigin
    rw [(word_iff _ o.username _).mpr ⟨b1, rfl, c1, c2, nl c3 c5⟩]
    simp only
    rw [(word_iff _ o.sessionId _).mpr ⟨b2, rfl, c4, c6, nl c7 c9⟩]
    simp only
    rw [(word_iff _ o.sessionVersion _).mpr ⟨b3, rfl, c8, c10, addressText_noLead c11 r⟩]
    simp only
    rw [(parseAddress_iff _ o.ipv6 o.address r).mpr ⟨a, rfl, c11, c12⟩]
    rfl

/-! ## Other parts -/

theorem parseBandwidth_iff (s : Str) (b : Bandwidth) (r : Str) : parseBandwidth s = some (b, r) ↔
    ∃ d, s = b.kind ++ ':' :: (d ++ r) ∧ ':' ∉ b.kind ∧ Number 4294967295 d b.kbps ∧
      ∀ c, r.head? = some c → isDigit c = false := by
  unfold parseBandwidth
  obtain ⟨k1, k2, k3⟩ := takeTill_split (fun c => c == ':') s
  constructor
  · intro h
    split at h
    · rename_i r' hr
      cases hn : number 4294967295 r' with
      | none => rw [hn] at h; cases h
      | some p =>
        obtain ⟨n, r2⟩ := p
        rw [hn] at h
        simp only [Option.map_some, Option.some.injEq, Prod.mk.injEq] at h
        obtain ⟨rfl, rfl⟩ := h
        obtain ⟨d, e1, e2, e3⟩ := (number_iff _ _ _ _).mp hn
        refine ⟨d, ?_, ?_, e2, e3⟩
        · rw [← e1, ← hr]; exact k1
        · intro hc; have := k2 _ hc; revert this; decide
    · cases h
  · rintro ⟨d, rfl, h1, h2, h3⟩
    have := (takeTill_iff (fun c => c == ':') (b.kind ++ ':' :: (d ++ r)) b.kind (':' :: (d ++ r))).mpr ⟨rfl, ?_, ?_⟩
    · rw [this]
      simp only
      rw [(number_iff _ _ _ _).mpr ⟨d, rfl, h2, h3⟩]
      rfl
    · intro c hc
      simp only [beq_eq_false_iff_ne, ne_eq]
      rintro rfl
      exact h1 hc
    · intro c hc
      simp only [List.head?_cons, Option.some.injEq] at hc
      simp [← hc]

theorem parseTime_iff (s : Str) (a z : Nat) (r : Str) : parseTime s = some ((a, z), r) ↔
    ∃ d b e, s = d ++ (b ++ (e ++ r)) ∧ Number 18446744073709551615 d a ∧ Blanks b ∧ Number 18446744073709551615 e z ∧
      ∀ c, r.head? = some c → isDigit c = false := by
  unfold parseTime
  constructor
  · intro h
    cases h1 : number 18446744073709551615 s with
    | none => rw [h1] at h; cases h
    | some p =>
      obtain ⟨a', s1⟩ := p
      rw [h1] at h
      simp only at h
      obtain ⟨d, e1, e2, e3⟩ := (number_iff _ _ _ _).mp h1
      cases h2 : space1 s1 with
      | none => rw [h2] at h; cases h
      | some s2 =>
        rw [h2] at h
        simp only at h
        obtain ⟨b, f1, f2, f3⟩ := (space1_iff _ _).mp h2
        cases h3 : number 18446744073709551615 s2 with
        | none => rw [h3] at h; cases h
        | some p =>
          obtain ⟨z', s3⟩ := p
          rw [h3] at h
          simp only [Option.map_some, Option.some.injEq, Prod.mk.injEq] at h
          obtain ⟨⟨rfl, rfl⟩, rfl⟩ := h
          obtain ⟨e, g1, g2, g3⟩ := (number_iff _ _ _ _).mp h3
          exact ⟨d, b, e, by rw [e1, f1, g1], e2, f2, g2, g3⟩
  · rintro ⟨d, b, e, rfl, h1, h2, h3, h4⟩
    rw [(number_iff _ _ _ _).mpr ⟨d, rfl, h1, ?_⟩]
    · simp only
      rw [(space1_iff _ (e ++ r)).mpr ⟨b, rfl, h2, digit_not_blank h3.1 r⟩]
      simp only
      rw [(number_iff _ _ _ _).mpr ⟨e, rfl, h3, h4⟩]
      rfl
    · intro c hc
      cases b with
      | nil => exact absurd rfl h2.1
      | cons x b =>
        simp only [List.cons_append, List.head?_cons, Option.some.injEq] at hc
        rw [← hc]
        rcases h2.2 x List.mem_cons_self with rfl | rfl <;> decide

theorem repeatWords_iff (ws : List Str) (r : RepeatTime) : RepeatWords r ws ↔ repeatOf ws = r := by
  constructor
  · intro h; cases h <;> rfl
  · rintro rfl
    match ws with
    | [] => exact .none
    | [a] => exact .one
    | a :: b :: os => exact .more

theorem zoneWords_iff : ∀ (ws : List Str) (zs : List Zone), ZoneWords zs ws ↔ zonesOf ws = zs
  | [], zs => ⟨fun h => (by cases h; rfl), fun h => (by cases h; exact .nil)⟩
  | [a], zs => ⟨fun h => (by cases h; rfl), fun h => (by cases h; exact .odd)⟩
  | a :: b :: ws, zs => by
    simp only [zonesOf]
    constructor
    · intro h
      cases h with
      | pair h => rw [(zoneWords_iff ws _).mp h]
    · rintro rfl
      exact .pair ((zoneWords_iff ws _).mpr rfl)

theorem dropWhile_append_none (P : Char → Bool) (a b : Str) (ha : ∀ c ∈ a, P c = true)
    (hb : ∀ c, b.head? = some c → P c = false) : (a ++ b).dropWhile P = b := by
  induction a with
  | nil =>
    cases b with
    | nil => rfl
    | cons c b => simp [hb c rfl]
  | cons c a ih =>
    rw [List.cons_append, List.dropWhile_cons, if_pos (ha c List.mem_cons_self)]
    exact ih (fun d hd => ha d (List.mem_cons_of_mem _ hd))

theorem stripsEnd_iff (s t : Str) : StripsEnd s t ↔ trimEnd s = t := by
  unfold StripsEnd trimEnd
  constructor
  · rintro ⟨b, rfl, h1, h2⟩
    rw [List.reverse_append, dropWhile_append_none _ _ _ (by simpa using h1) (by simpa [List.head?_reverse] using h2),
      List.reverse_reverse]
  · rintro rfl
    have h := (takeTill_split (fun c => !isWs c) s.reverse)
    obtain ⟨k1, k2, k3⟩ := h
    have hk : (takeTill (fun c => !isWs c) s.reverse).2 = s.reverse.dropWhile isWs := by unfold takeTill; simp
    rw [hk] at k1 k3
    refine ⟨((takeTill (fun c => !isWs c) s.reverse).1).reverse, ?_, ?_, ?_⟩
    · rw [← List.reverse_append, ← k1, List.reverse_reverse]
    · intro c hc
      simpa using k2 c (List.mem_reverse.mp hc)
    · intro c hc
      rw [List.getLast?_reverse] at hc
      simpa using k3 c hc

theorem parseAttribute_iff (s : Str) (a : Attribute) (r : Str) : parseAttribute s = (a, r) ↔
    (∀ c, r.head? = some c → c = '\r' ∨ c = '\n') ∧
    ((∃ n v t, s = n ++ ':' :: (v ++ r) ∧ ':' ∉ n ∧ OneLine n ∧ OneLine v ∧ StripsEnd v t ∧ a = .value n t) ∨
     (∃ x t, s = x ++ r ∧ ':' ∉ x ∧ OneLine x ∧ Strips isWs x t ∧ a = .property t)) := by
  have hcls : ∀ n : Str, (∀ c ∈ n, (c == ':' || isEol c) = false) ↔ ':' ∉ n ∧ OneLine n := by
    intro n
    rw [oneLine_iff]
    simp only [Bool.or_eq_false_iff, beq_eq_false_iff_ne, ne_eq]
    constructor
    · intro h
      exact ⟨fun hc => (h _ hc).1 rfl, fun c hc => (h c hc).2⟩
    · rintro ⟨h1, h2⟩ c hc
      exact ⟨fun e => h1 (e ▸ hc), h2 c hc⟩
  obtain ⟨k1, k2, k3⟩ := takeTill_split (fun c => c == ':' || isEol c) s
  rw [hcls] at k2
  unfold parseAttribute
  constructor
  · intro h
    split at h
    · rename_i r' hr
      simp only [Prod.mk.injEq] at h
      obtain ⟨rfl, rfl⟩ := h
      obtain ⟨e1, e2, e3⟩ := (restEq_iff r' (takeTill isEol r').1 (takeTill isEol r').2).mp rfl
      refine ⟨e3, Or.inl ⟨_, _, _, ?_, k2.1, k2.2, e2, (stripsEnd_iff _ _).mpr rfl, rfl⟩⟩
      rw [← e1, ← hr]
      exact k1
    · rename_i hno
      simp only [Prod.mk.injEq] at h
      obtain ⟨rfl, rfl⟩ := h
      obtain ⟨x, e1, e2, e3, e4⟩ := (rest_iff s _ _).mp rfl
      refine ⟨e4, Or.inr ⟨x, _, e1, ?_, e2, e3, rfl⟩⟩
      -- the name stopped at the line end
      have hend : ∀ c, (takeTill (fun c => c == ':' || isEol c) s).2.head? = some c → isEol c = true := by
        intro c hc
        have := k3 c hc
        simp only [Bool.or_eq_true, beq_iff_eq] at this
        rcases this with rfl | h
        · cases hs : (takeTill (fun c => c == ':' || isEol c) s).2 with
          | nil => rw [hs] at hc; cases hc
          | cons d ds =>
            rw [hs] at hc
            simp only [List.head?_cons, Option.some.injEq] at hc
            subst hc
            exact absurd hs (hno ds)
        · exact h
      have hx := (takeTill_iff isEol s _ _).mpr ⟨k1, (oneLine_iff _).mp k2.2, hend⟩
      have hx' := (takeTill_iff isEol s _ _).mpr ⟨e1, (oneLine_iff _).mp e2, (eolHead_iff _).mpr e4⟩
      rw [hx] at hx'
      simp only [Prod.mk.injEq] at hx'
      rw [← hx'.1]
      exact k2.1
  · rintro ⟨hr, ⟨n, v, t, rfl, h1, h2, h3, h4, rfl⟩ | ⟨x, t, rfl, h1, h2, h3, rfl⟩⟩
    · have := (takeTill_iff (fun c => c == ':' || isEol c) (n ++ ':' :: (v ++ r)) n (':' :: (v ++ r))).mpr
        ⟨rfl, (hcls n).mpr ⟨h1, h2⟩, by intro c hc; simp only [List.head?_cons, Option.some.injEq] at hc; simp [← hc]⟩
      rw [this]
      simp only
      rw [(restEq_iff (v ++ r) v r).mpr ⟨rfl, h3, hr⟩]
      simp only
      rw [(stripsEnd_iff v t).mp h4]
    · have := (takeTill_iff (fun c => c == ':' || isEol c) (x ++ r) x r).mpr
        ⟨rfl, (hcls x).mpr ⟨h1, h2⟩, by
          intro c hc
          rcases hr c hc with rfl | rfl <;> decide⟩
      rw [this]
      simp only
      split
      · exact absurd (hr ':' rfl) (by decide)
      · rw [(rest_iff (x ++ r) t r).mpr ⟨x, rfl, h2, h3, hr⟩]

/-! ## Media lines -/

theorem blanks_head {b r : Str} (h : Blanks b) : ∃ c, (b ++ r).head? = some c ∧ (c = ' ' ∨ c = '\t') := by
  cases b with
  | nil => exact absurd rfl h.1
  | cons c b => exact ⟨c, rfl, h.2 c List.mem_cons_self⟩

theorem parsePort_iff (s : Str) (p : Nat) (num : Option Nat) (r : Str)
    (hr : ∃ c, r.head? = some c ∧ (c = ' ' ∨ c = '\t')) :
    parsePort s = some ((p, num), r) ↔ ∃ d, s = d ++ r ∧ PortText p num d := by
  obtain ⟨c0, hc0, hb⟩ := hr
  have hnd : ∀ c, r.head? = some c → isDigit c = false := by
    intro c hc
    rw [hc0] at hc
    simp only [Option.some.injEq] at hc
    subst hc
    rcases hb with rfl | rfl <;> decide
  have hns : ∀ x, r ≠ '/' :: x := by
    rintro x rfl
    simp only [List.head?_cons, Option.some.injEq] at hc0
    subst hc0
    rcases hb with h | h <;> exact absurd h (by decide)
  unfold parsePort
  constructor
  · intro h
    cases h1 : number 65535 s with
    | none => rw [h1] at h; cases h
    | some q =>
      obtain ⟨p', s1⟩ := q
      rw [h1] at h
      obtain ⟨d, e1, e2, e3⟩ := (number_iff _ _ _ _).mp h1
      split at h
      · cases ‹some (p', s1) = none›
      · rename_i p2 r2 heq
        simp only [Option.some.injEq, Prod.mk.injEq] at heq
        obtain ⟨rfl, rfl⟩ := heq
        cases h2 : number 65535 r2 with
        | none =>
          rw [h2] at h
          simp only [Option.some.injEq, Prod.mk.injEq] at h
          exact absurd h.2.symm (hns r2)
        | some q =>
          obtain ⟨n, r3⟩ := q
          rw [h2] at h
          simp only [Option.some.injEq, Prod.mk.injEq] at h
          obtain ⟨⟨rfl, rfl⟩, rfl⟩ := h
          obtain ⟨e, f1, f2, f3⟩ := (number_iff _ _ _ _).mp h2
          refine ⟨d ++ '/' :: e, ?_, .many e2 f2⟩
          rw [e1, f1]
          simp
      · rename_i p2 r2 hno heq
        simp only [Option.some.injEq, Prod.mk.injEq] at heq h
        obtain ⟨rfl, rfl⟩ := heq
        obtain ⟨⟨rfl, rfl⟩, rfl⟩ := h
        exact ⟨d, e1, .one e2⟩
  · rintro ⟨t, rfl, ht⟩
    cases ht with
    | one h =>
      rw [(number_iff _ _ _ _).mpr ⟨t, rfl, h, hnd⟩]
      split
      · cases ‹some _ = none›
      · rename_i heq
        simp only [Option.some.injEq, Prod.mk.injEq] at heq
        exact absurd heq.2 (hns _)
      · rename_i heq
        simp only [Option.some.injEq, Prod.mk.injEq] at heq
        rw [heq.1, heq.2]
    | @many d _ e n h1 h2 =>
      rw [List.append_assoc, List.cons_append]
      rw [(number_iff 65535 _ p ('/' :: (e ++ r))).mpr ⟨d, rfl, h1, by
        intro c hc
        simp only [List.head?_cons, Option.some.injEq] at hc
        subst hc; decide⟩]
      simp only
      rw [(number_iff _ _ _ _).mpr ⟨e, rfl, h2, hnd⟩]

theorem prefix_of_append {k n r : Str} (hk : ∀ c ∈ k, c ≠ ' ') (hr : r.head? = some ' ') (h : k <+: n ++ r) : k <+: n := by
  induction k generalizing n with
  | nil => exact List.nil_prefix
  | cons c k ih =>
    cases n with
    | nil =>
      cases r with
      | nil => cases hr
      | cons d r =>
        simp only [List.head?_cons, Option.some.injEq] at hr
        obtain ⟨x, hx⟩ := h
        simp only [List.nil_append, List.cons_append, List.cons.injEq] at hx
        exact absurd (hx.1.trans hr) (hk c List.mem_cons_self)
    | cons d n =>
      rw [List.cons_append, List.cons_prefix_cons] at h
      rw [List.cons_prefix_cons]
      exact ⟨h.1, ih (fun c hc => hk c (List.mem_cons_of_mem _ hc)) h.2⟩

theorem parseProtocol_iff (s : Str) (p : Protocol) (r : Str) (hs : NoLead s) :
    (parseProtocol s = (p, r) ∧ ∃ c, r.head? = some c ∧ (c = ' ' ∨ c = '\t')) ↔
    ∃ n, s = n ++ r ∧ ProtocolName p n ∧ (∃ c, r.head? = some c ∧ (c = ' ' ∨ c = '\t')) ∧
      ∀ x, p = .other x → r.head? = some ' ' := by
  constructor
  · rintro ⟨h, hr⟩
    unfold parseProtocol at h
    split at h
    · rename_i r' ht
      simp only [Prod.mk.injEq] at h
      obtain ⟨rfl, rfl⟩ := h
      exact ⟨_, (tag_iff _ _ _).mp ht, by simp [ProtocolName], hr, by simp⟩
    rename_i t1
    split at h
    · rename_i r' ht
      simp only [Prod.mk.injEq] at h
      obtain ⟨rfl, rfl⟩ := h
      exact ⟨_, (tag_iff _ _ _).mp ht, by simp [ProtocolName], hr, by simp⟩
    rename_i t2
    split at h
    · rename_i r' ht
      simp only [Prod.mk.injEq] at h
      obtain ⟨rfl, rfl⟩ := h
      exact ⟨_, (tag_iff _ _ _).mp ht, by simp [ProtocolName], hr, by simp⟩
    rename_i t3
    split at h
    · rename_i r' ht
      simp only [Prod.mk.injEq] at h
      obtain ⟨rfl, rfl⟩ := h
      exact ⟨_, (tag_iff _ _ _).mp ht, by simp [ProtocolName], hr, by simp⟩
    rename_i t4
    split at h
    · rename_i r' ht
      simp only [Prod.mk.injEq] at h
      obtain ⟨rfl, rfl⟩ := h
      exact ⟨_, (tag_iff _ _ _).mp ht, by simp [ProtocolName], hr, by simp⟩
    rename_i t5
    split at h
    · rename_i r' ht
      simp only [Prod.mk.injEq] at h
      obtain ⟨rfl, rfl⟩ := h
      exact ⟨_, (tag_iff _ _ _).mp ht, by simp [ProtocolName], hr, by simp⟩
    rename_i t6
    split at h
    · rename_i r' ht
      simp only [Prod.mk.injEq] at h
      obtain ⟨rfl, rfl⟩ := h
      exact ⟨_, (tag_iff _ _ _).mp ht, by simp [ProtocolName], hr, by simp⟩
    rename_i t7
    simp only [Prod.mk.injEq] at h
    obtain ⟨rfl, h2⟩ := h
    obtain ⟨k1, k2, k3⟩ := takeTill_split isGap s
    rw [h2] at k1 k3
    obtain ⟨hsp, hol⟩ := (gapFree_iff _).mpr k2
    obtain ⟨c, hc, hb⟩ := hr
    have hspace : r.head? = some ' ' := by
      have := k3 c hc
      rcases hb with rfl | rfl
      · exact hc
      · exact absurd this (by decide)
    have hpre : ∀ k, tag k s = none → ¬ k <+: (takeTill isGap s).1 := by
      intro k hk hp
      refine (tag_none_iff k s).mp hk ?_
      rw [k1]
      exact hp.trans (List.prefix_append _ _)
    refine ⟨_, k1, ?_, ⟨c, hc, hb⟩, fun _ _ => hspace⟩
    unfold ProtocolName
    refine Or.inr (Or.inr (Or.inr (Or.inr (Or.inr (Or.inr (Or.inr ⟨rfl, ?_, hsp, hol, ?_, ?_⟩))))))
    · intro he
      rw [he, List.nil_append] at k1
      rw [k1] at hs
      exact hs.1 hspace
    · rw [k1] at hs
      exact noLead_left hs
    · intro k hk
      simp only [List.mem_cons, List.not_mem_nil, or_false] at hk
      rcases hk with rfl | rfl | rfl | rfl
      · exact hpre _ t4
      · exact hpre _ t5
      · exact hpre _ t6
      · exact hpre _ t7
  · rintro ⟨n, rfl, hn, ⟨c, hc, hb⟩, ho⟩
    refine ⟨?_, c, hc, hb⟩
    cases r with
    | nil => cases hc
    | cons d r =>
    simp only [List.head?_cons, Option.some.injEq] at hc
    subst hc
    unfold ProtocolName at hn
    rcases hn with ⟨rfl, rfl⟩ | ⟨rfl, rfl⟩ | ⟨rfl, rfl⟩ | ⟨rfl, rfl⟩ | ⟨rfl, rfl⟩ | ⟨rfl, rfl⟩ | ⟨rfl, rfl⟩ | ⟨rfl, h1, h2, h3, h4, h5⟩
    · rcases hb with rfl | rfl <;> rfl
    · rcases hb with rfl | rfl <;> rfl
    · rcases hb with rfl | rfl <;> rfl
    · rcases hb with rfl | rfl <;> rfl
    · rcases hb with rfl | rfl <;> rfl
    · rcases hb with rfl | rfl <;> rfl
    · rcases hb with rfl | rfl <;> rfl
    · have hsp := ho n rfl
      have hno : ∀ k b, (∀ c ∈ k, c ≠ ' ') → b ∈ ["RTP/SAVP".toList, "RTP/AVP".toList, "UDP".toList, "TCP".toList] → b <+: k →
          tag k (n ++ d :: r) = none := by
        intro k b hk hb hbk
        rw [tag_none_iff]
        intro hp
        exact h5 b hb (hbk.trans (prefix_of_append hk hsp hp))
      unfold parseProtocol
      rw [hno "UDP/TLS/RTP/SAVPF".toList "UDP".toList (by decide) (by decide) (by decide),
        hno "TCP/TLS/RTP/SAVPF".toList "TCP".toList (by decide) (by decide) (by decide),
        hno "RTP/SAVPF".toList "RTP/SAVP".toList (by decide) (by decide) (by decide),
        hno "RTP/SAVP".toList "RTP/SAVP".toList (by decide) (by decide) (by decide),
        hno "RTP/AVP".toList "RTP/AVP".toList (by decide) (by decide) (by decide),
        hno "UDP".toList "UDP".toList (by decide) (by decide) (by decide),
        hno "TCP".toList "TCP".toList (by decide) (by decide) (by decide)]
      simp only
      rw [(takeTill_iff isGap (n ++ d :: r) n (d :: r)).mpr ⟨rfl, (gapFree_iff n).mp ⟨h2, h3⟩, by
        intro c hc
        rw [hsp] at hc
        simp only [Option.some.injEq] at hc
        subst hc; decide⟩]

theorem spaces_noLead {f b t : Str} (h : NoLead (f ++ (b ++ t))) (hb : Spaces b) : f ≠ [] := by
  rintro rfl
  obtain ⟨⟨h1, _⟩, h2⟩ := hb
  cases b with
  | nil => exact h1 rfl
  | cons c b => exact h.1 (by simpa using h2)

theorem formatsText_noLead {fs : List Str} {t r : Str} (h : FormatsText fs t) (hr : NoLead r) : NoLead (t ++ r) := by
  cases h with
  | one _ _ hn => exact noLead_append hn hr
  | @more f b fs t hne _ _ hn _ _ =>
    rw [List.append_assoc]
    cases f with
    | nil => exact absurd rfl hne
    | cons c f => exact hn

theorem tokens_iff (f : Nat) (s : Str) (hf : s.length < f) (hs : NoLead s) (fs : List Str) (r : Str) :
    tokens f s = (fs, r) ↔ ∃ t, s = t ++ r ∧ FormatsText fs t ∧ ∀ c, r.head? = some c → c = '\r' ∨ c = '\n' := by
  induction f generalizing s fs with
  | zero => omega
  | succ f ih =>
    simp only [tokens]
    obtain ⟨k1, k2, k3⟩ := takeTill_split isGap s
    generalize hx : (takeTill isGap s).1 = x at k1 k2 k3 ⊢
    generalize hr0 : (takeTill isGap s).2 = r0 at k1 k2 k3 ⊢
    have hgf := (gapFree_iff x).mpr k2
    constructor
    · intro h
      cases h1 : space1 r0 with
      | none =>
        rw [h1] at h
        simp only [Prod.mk.injEq] at h
        obtain ⟨rfl, rfl⟩ := h
        refine ⟨x, k1, .one hgf.1 hgf.2 (noLead_left (by rw [← k1]; exact hs)), ?_⟩
        intro c hc
        cases r0 with
        | nil => cases hc
        | cons d r0 =>
          have := k3 c hc
          simp only [List.head?_cons, Option.some.injEq] at hc
          subst hc
          rcases (isGap_iff d).mp this with rfl | h
          · simp only [space1] at h1
            rw [if_pos (by decide)] at h1
            cases h1
          · exact h
      | some r1 =>
        rw [h1] at h
        simp only [Prod.mk.injEq] at h
        obtain ⟨b, e1, e2, e3⟩ := (space1_iff _ _).mp h1
        have hsp : Spaces b := by
          refine ⟨e2, ?_⟩
          obtain ⟨c, hc, hb⟩ := blanks_head (r := r1) e2
          have := k3 c (by rw [e1]; exact hc)
          have hce : c = ' ' := by
            rcases hb with h | rfl
            · exact h
            · exact absurd this (by decide)
          subst hce
          cases b with
          | nil => exact absurd rfl e2.1
          | cons d b => simpa using hc
        have hlen : r1.length < f := by
          rw [k1, e1] at hf
          simp only [List.length_append] at hf
          have : 0 < b.length := List.length_pos_iff.mpr e2.1
          omega
        have hxne : x ≠ [] := spaces_noLead (by rw [← e1, ← k1]; exact hs) hsp
        obtain ⟨t, g1, g2, g3⟩ := (ih r1 hlen e3 (tokens f r1).1).mp (by rw [← h.2])
        obtain ⟨rfl, h⟩ := h
        refine ⟨x ++ (b ++ t), ?_, .more hxne hgf.1 hgf.2 (noLead_left (by rw [← k1]; exact hs)) hsp g2, g3⟩
        rw [k1, e1]
        simp only [List.append_assoc]
        rw [← g1]
    · rintro ⟨t, h1, h2, h3⟩
      have nb : NoLead r := eol_not_blank h3
      cases h2 with
      | one g1 g2 g3 =>
        have := (takeTill_iff isGap s _ _).mpr ⟨h1, (gapFree_iff _).mp ⟨g1, g2⟩, by
          intro c hc; exact (isGap_iff c).mpr (Or.inr (h3 c hc))⟩
        rw [this] at hx hr0
        simp only at hx hr0
        subst hx hr0
        cases r with
        | nil => rfl
        | cons d r =>
          have hb := (noLead_iff _).mp nb d rfl
          simp only [space1, hb, Bool.false_eq_true, if_false]
      | @more g b gs t' g1 g2 g3 g4 g5 g6 =>
        rw [List.append_assoc, List.append_assoc] at h1
        have hsp : ∀ c, (b ++ (t' ++ r)).head? = some c → isGap c = true := by
          intro c hc
          cases b with
          | nil => exact absurd rfl g5.1.1
          | cons d b =>
            have := g5.2
            simp only [List.head?_cons, List.cons_append, Option.some.injEq] at hc this
            subst hc; rw [this]; decide
        have := (takeTill_iff isGap s g (b ++ (t' ++ r))).mpr ⟨h1, (gapFree_iff _).mp ⟨g2, g3⟩, hsp⟩
        rw [this] at hx hr0
        simp only at hx hr0
        subst hx hr0
        have hn := formatsText_noLead g6 nb
        rw [(space1_iff _ _).mpr ⟨b, rfl, g5.1, hn⟩]
        simp only
        have hlen : (t' ++ r).length < f := by
          rw [h1] at hf
          simp only [List.length_append] at hf ⊢
          have : 0 < b.length := List.length_pos_iff.mpr g5.1.1
          omega
        rw [(ih (t' ++ r) hlen hn gs).mpr ⟨t', rfl, g6, h3⟩]

theorem mediaType_iff (n : Str) (k : MediaType) : mediaType n = k ↔ KindName k n := by
  unfold mediaType KindName
  constructor
  · rintro rfl
    split
    · exact Or.inl ⟨rfl, by assumption⟩
    split
    · exact Or.inr (Or.inl ⟨rfl, by assumption⟩)
    split
    · exact Or.inr (Or.inr (Or.inl ⟨rfl, by assumption⟩))
    split
    · exact Or.inr (Or.inr (Or.inr (Or.inl ⟨rfl, by assumption⟩)))
    split
    · exact Or.inr (Or.inr (Or.inr (Or.inr (Or.inl ⟨rfl, by assumption⟩))))
    · refine Or.inr (Or.inr (Or.inr (Or.inr (Or.inr ⟨rfl, ?_⟩))))
      simp only [List.mem_cons, List.not_mem_nil, or_false, not_or]
      exact ⟨by assumption, by assumption, by assumption, by assumption, by assumption⟩
  · rintro (⟨rfl, rfl⟩ | ⟨rfl, rfl⟩ | ⟨rfl, rfl⟩ | ⟨rfl, rfl⟩ | ⟨rfl, rfl⟩ | ⟨rfl, h⟩)
    · rfl
    · rfl
    · rfl
    · rfl
    · rfl
    · simp only [List.mem_cons, List.not_mem_nil, or_false, not_or] at h
      rw [if_neg h.1, if_neg h.2.1, if_neg h.2.2.1, if_neg h.2.2.2.1, if_neg h.2.2.2.2]

theorem protocolName_noLead {p : Protocol} {n : Str} (h : ProtocolName p n) (r : Str) : NoLead (n ++ r) := by
  unfold ProtocolName at h
  rcases h with ⟨_, rfl⟩ | ⟨_, rfl⟩ | ⟨_, rfl⟩ | ⟨_, rfl⟩ | ⟨_, rfl⟩ | ⟨_, rfl⟩ | ⟨_, rfl⟩ | ⟨_, h1, _, _, h4, _⟩
  rotate_right
  · cases n with
    | nil => exact absurd rfl h1
    | cons c n => exact h4
  all_goals exact ⟨by simp, by simp⟩

theorem portText_noLead {p : Nat} {num : Option Nat} {d : Str} (h : PortText p num d) (r : Str) : NoLead (d ++ r) := by
  cases h with
  | one h => exact digit_not_blank h.1 r
  | many h _ => rw [List.append_assoc]; exact digit_not_blank h.1 _

theorem parseMedia_iff (s : Str) (m : Media) (r : Str) : parseMedia s = some (m, r) ↔
    ∃ kn b1 pt b2 pn b3 ft, s = kn ++ (b1 ++ (pt ++ (b2 ++ (pn ++ (b3 ++ (ft ++ r)))))) ∧ KindName m.kind kn ∧ ' ' ∉ kn ∧
      OneLine kn ∧ Spaces b1 ∧ PortText m.port m.numPorts pt ∧ Blanks b2 ∧ ProtocolName m.protocol pn ∧ Blanks b3 ∧
      (∀ n, m.protocol = .other n → b3.head? = some ' ') ∧ FormatsText m.formats ft ∧
      m = { kind := m.kind, port := m.port, numPorts := m.numPorts, protocol := m.protocol, formats := m.formats } ∧
      ∀ c, r.head? = some c → c = '\r' ∨ c = '\n' := by
  constructor
  · intro h
    unfold parseMedia at h
    obtain ⟨k1, k2, k3⟩ := takeTill_split isGap s
    generalize hx : (takeTill isGap s).1 = kn at k1 k2 k3 h
    generalize hr0 : (takeTill isGap s).2 = r0 at k1 k2 k3 h
    have hgf := (gapFree_iff kn).mpr k2
    cases h1 : space1 r0 with
    | none => rw [h1] at h; cases h
    | some s1 =>
      rw [h1] at h
      simp only at h
      obtain ⟨b1, e1, e2, e3⟩ := (space1_iff _ _).mp h1
      have hsp : Spaces b1 := by
        refine ⟨e2, ?_⟩
        obtain ⟨c, hc, hb⟩ := blanks_head (r := s1) e2
        have := k3 c (by rw [e1]; exact hc)
        have hce : c = ' ' := by
          rcases hb with h | rfl
          · exact h
          · exact absurd this (by decide)
        subst hce
        cases b1 with
        | nil => exact absurd rfl e2.1
        | cons d b => simpa using hc
      cases h2 : parsePort s1 with
      | none => rw [h2] at h; cases h
      | some q =>
        obtain ⟨⟨port, num⟩, s2⟩ := q
        rw [h2] at h
        simp only at h
        cases h3 : space1 s2 with
        | none => rw [h3] at h; cases h
        | some s3 =>
          rw [h3] at h
          simp only at h
          obtain ⟨b2, f1, f2, f3⟩ := (space1_iff _ _).mp h3
          obtain ⟨pt, g1, g2⟩ := (parsePort_iff _ _ _ _ (by rw [f1]; exact blanks_head f2)).mp h2
          cases h4 : space1 (parseProtocol s3).2 with
          | none => rw [h4] at h; cases h
          | some s4 =>
            rw [h4] at h
            simp only [Option.some.injEq, Prod.mk.injEq] at h
            obtain ⟨b3, i1, i2, i3⟩ := (space1_iff _ _).mp h4
            obtain ⟨pn, j1, j2, _, j3⟩ := (parseProtocol_iff s3 (parseProtocol s3).1 (parseProtocol s3).2 f3).mp
              ⟨rfl, by rw [i1]; exact blanks_head i2⟩
            obtain ⟨ft, l1, l2, l3⟩ := (tokens_iff (s4.length + 1) s4 (by omega) i3 (tokens (s4.length + 1) s4).1 (tokens (s4.length + 1) s4).2).mp rfl
            obtain ⟨rfl, rfl⟩ := h
            refine ⟨kn, b1, pt, b2, pn, b3, ft, ?_, (mediaType_iff _ _).mp rfl, hgf.1, hgf.2, hsp, g2, f2, j2, i2, ?_, l2, rfl, l3⟩
            · rw [k1, e1, g1, f1, j1, i1, ← l1]
            · intro n hn
              have := j3 n hn
              rw [i1] at this
              cases b3 with
              | nil => exact absurd rfl i2.1
              | cons c b => simpa using this
  · rintro ⟨kn, b1, pt, b2, pn, b3, ft, rfl, c1, c2, c3, c4, c5, c6, c7, c8, c9, c10, c11, c12⟩
    unfold parseMedia
    have hsp : ∀ c, (b1 ++ (pt ++ (b2 ++ (pn ++ (b3 ++ (ft ++ r)))))).head? = some c → isGap c = true := by
      intro c hc
      cases b1 with
      | nil => exact absurd rfl c4.1.1
      | cons d b =>
        have := c4.2
        simp only [List.head?_cons, List.cons_append, Option.some.injEq] at hc this
        subst hc; rw [this]; decide
    rw [(takeTill_iff isGap _ kn _).mpr ⟨rfl, (gapFree_iff _).mp ⟨c2, c3⟩, hsp⟩]
    simp only
    rw [(space1_iff _ (pt ++ (b2 ++ (pn ++ (b3 ++ (ft ++ r)))))).mpr ⟨b1, rfl, c4.1, portText_noLead c5 _⟩]
    simp only
    rw [(parsePort_iff _ m.port m.numPorts (b2 ++ (pn ++ (b3 ++ (ft ++ r)))) (blanks_head c6)).mpr ⟨pt, rfl, c5⟩]
    simp only
    rw [(space1_iff _ (pn ++ (b3 ++ (ft ++ r)))).mpr ⟨b2, rfl, c6, protocolName_noLead c7 _⟩]
    simp only
    have hp := (parseProtocol_iff (pn ++ (b3 ++ (ft ++ r))) m.protocol (b3 ++ (ft ++ r)) (protocolName_noLead c7 _)).mpr
      ⟨pn, rfl, c7, blanks_head c8, by
        intro x hx
        have := c9 x hx
        cases b3 with
        | nil => exact absurd rfl c8.1
        | cons c b => simpa using this⟩
    rw [hp.1]
    simp only
    have hn := formatsText_noLead c10 (eol_not_blank c12)
    rw [(space1_iff _ (ft ++ r)).mpr ⟨b3, rfl, c8, hn⟩]
    simp only
    rw [(tokens_iff _ (ft ++ r) (by omega) hn m.formats r).mpr ⟨ft, rfl, c10, c12⟩]
    simp only
    rw [(mediaType_iff kn m.kind).mpr c1, ← c11]

/-! ## Lines -/

/-- What a line says, and what follows it. -/
theorem parseLine_iff (s : Str) (l : SdpLine) (r : Str) :
    parseLine s = some (l, r) ↔ ∃ t, s = t ++ r ∧ Reads l t ∧ Ends l r := by
  constructor
  · intro h
    unfold parseLine at h
    split at h
    case h_1 s =>
      cases h1 : number 255 s with
      | none => rw [h1] at h; cases h
      | some p =>
        rw [h1] at h
        simp only [Option.map_some, Option.some.injEq, Prod.mk.injEq] at h
        obtain ⟨rfl, rfl⟩ := h
        obtain ⟨d, e1, e2, e3⟩ := (number_iff _ _ p.1 p.2).mp h1
        exact ⟨"v=".toList ++ d, by rw [e1]; rfl, .version e2, e3⟩
    case h_2 s =>
      cases h1 : parseOrigin s with
      | none => rw [h1] at h; cases h
      | some p =>
        rw [h1] at h
        simp only [Option.map_some, Option.some.injEq, Prod.mk.injEq] at h
        obtain ⟨rfl, rfl⟩ := h
        obtain ⟨u, b1, i, b2, v, b3, a, e1, c1, c2, c3, c4, c5, c6, c7, c8, c9, c10, c11, rfl, rfl, rfl, c15⟩ :=
          (parseOrigin_iff _ p.1 p.2).mp h1
        refine ⟨_, ?_, .origin c1 c2 c3 c4 c5 c6 c7 c8 c9 c10 c11, c15⟩
        rw [e1]
        simp [List.append_assoc]
    case h_3 s =>
      simp only [Option.some.injEq, Prod.mk.injEq] at h
      obtain ⟨rfl, rfl⟩ := h
      obtain ⟨x, e1, e2, e3, e4⟩ := (rest_iff s (restOfLine s).1 (restOfLine s).2).mp rfl
      exact ⟨"s=".toList ++ x, congrArg (fun t => 's' :: '=' :: t) e1, .name e2 e3, e4⟩
    case h_4 s =>
      simp only [Option.some.injEq, Prod.mk.injEq] at h
      obtain ⟨rfl, rfl⟩ := h
      obtain ⟨x, e1, e2, e3, e4⟩ := (rest_iff s (restOfLine s).1 (restOfLine s).2).mp rfl
      exact ⟨"i=".toList ++ x, congrArg (fun t => 'i' :: '=' :: t) e1, .info e2 e3, e4⟩
    case h_5 s =>
      simp only [Option.some.injEq, Prod.mk.injEq] at h
      obtain ⟨rfl, rfl⟩ := h
      obtain ⟨x, e1, e2, e3, e4⟩ := (rest_iff s (restOfLine s).1 (restOfLine s).2).mp rfl
      exact ⟨"u=".toList ++ x, congrArg (fun t => 'u' :: '=' :: t) e1, .uri e2 e3, e4⟩
    case h_6 s =>
      simp only [Option.some.injEq, Prod.mk.injEq] at h
      obtain ⟨rfl, rfl⟩ := h
      obtain ⟨x, e1, e2, e3, e4⟩ := (rest_iff s (restOfLine s).1 (restOfLine s).2).mp rfl
      exact ⟨"e=".toList ++ x, congrArg (fun t => 'e' :: '=' :: t) e1, .email e2 e3, e4⟩
    case h_7 s =>
      simp only [Option.some.injEq, Prod.mk.injEq] at h
      obtain ⟨rfl, rfl⟩ := h
      obtain ⟨x, e1, e2, e3, e4⟩ := (rest_iff s (restOfLine s).1 (restOfLine s).2).mp rfl
      exact ⟨"p=".toList ++ x, congrArg (fun t => 'p' :: '=' :: t) e1, .phone e2 e3, e4⟩
    case h_8 s =>
      unfold parseConnection at h
      cases h1 : parseAddress s with
      | none => rw [h1] at h; cases h
      | some p =>
        rw [h1] at h
        simp only [Option.map_some, Option.some.injEq, Prod.mk.injEq] at h
        obtain ⟨rfl, rfl⟩ := h
        obtain ⟨a, e1, e2, e3⟩ := (parseAddress_iff _ p.1.1 p.1.2 p.2).mp h1
        exact ⟨"c=".toList ++ a, by rw [e1]; rfl, .connection e2, e3⟩
    case h_9 s =>
      cases h1 : parseBandwidth s with
      | none => rw [h1] at h; cases h
      | some p =>
        rw [h1] at h
        simp only [Option.map_some, Option.some.injEq, Prod.mk.injEq] at h
        obtain ⟨rfl, rfl⟩ := h
        obtain ⟨d, e1, e2, e3, e4⟩ := (parseBandwidth_iff _ p.1 p.2).mp h1
        refine ⟨_, ?_, .bandwidth e2 e3, e4⟩
        rw [e1]
        simp [List.append_assoc]
    case h_10 s =>
      cases h1 : parseTime s with
      | none => rw [h1] at h; cases h
      | some p =>
        rw [h1] at h
        simp only [Option.map_some, Option.some.injEq, Prod.mk.injEq] at h
        obtain ⟨rfl, rfl⟩ := h
        obtain ⟨d, b, e, e1, e2, e3, e4, e5⟩ := (parseTime_iff _ p.1.1 p.1.2 p.2).mp h1
        refine ⟨_, ?_, .time e2 e3 e4, e5⟩
        rw [e1]
        simp [List.append_assoc]
    case h_11 s =>
      simp only [Option.some.injEq, Prod.mk.injEq] at h
      obtain ⟨rfl, rfl⟩ := h
      obtain ⟨e1, e2, e3⟩ := (restEq_iff s (takeTill isEol s).1 (takeTill isEol s).2).mp rfl
      exact ⟨"r=".toList ++ (takeTill isEol s).1, congrArg (fun t => 'r' :: '=' :: t) e1,
        .repeat e2 ((words_iff _ _).mpr rfl) ((repeatWords_iff _ _).mpr rfl), e3⟩
    case h_12 s =>
      simp only [Option.some.injEq, Prod.mk.injEq] at h
      obtain ⟨rfl, rfl⟩ := h
      obtain ⟨e1, e2, e3⟩ := (restEq_iff s (takeTill isEol s).1 (takeTill isEol s).2).mp rfl
      exact ⟨"z=".toList ++ (takeTill isEol s).1, congrArg (fun t => 'z' :: '=' :: t) e1,
        .zone e2 ((words_iff _ _).mpr rfl) ((zoneWords_iff _ _).mpr rfl), e3⟩
    case h_13 s =>
      simp only [Option.some.injEq, Prod.mk.injEq] at h
      obtain ⟨rfl, rfl⟩ := h
      obtain ⟨x, e1, e2, e3, e4⟩ := (rest_iff s (restOfLine s).1 (restOfLine s).2).mp rfl
      exact ⟨"k=".toList ++ x, congrArg (fun t => 'k' :: '=' :: t) e1, .key e2 e3, e4⟩
    case h_14 s =>
      simp only [Option.some.injEq, Prod.mk.injEq] at h
      obtain ⟨rfl, rfl⟩ := h
      obtain ⟨hr, ⟨n, v, t, e1, e2, e3, e4, e5, e6⟩ | ⟨x, t, e1, e2, e3, e4, e5⟩⟩ :=
        (parseAttribute_iff s (parseAttribute s).1 (parseAttribute s).2).mp rfl
      · refine ⟨"a=".toList ++ (n ++ ':' :: v), ?_, by rw [e6]; exact .value e2 e3 e4 e5, hr⟩
        have : 'a' :: '=' :: s = 'a' :: '=' :: (n ++ ':' :: (v ++ (parseAttribute s).2)) := congrArg (fun t => 'a' :: '=' :: t) e1
        rw [this]
        simp [List.append_assoc]
      · exact ⟨"a=".toList ++ x, congrArg (fun t => 'a' :: '=' :: t) e1, by rw [e5]; exact .property e2 e3 e4, hr⟩
    case h_15 s =>
      cases h1 : parseMedia s with
      | none => rw [h1] at h; cases h
      | some p =>
        rw [h1] at h
        simp only [Option.map_some, Option.some.injEq, Prod.mk.injEq] at h
        obtain ⟨rfl, rfl⟩ := h
        obtain ⟨kn, b1, pt, b2, pn, b3, ft, e1, c1, c2, c3, c4, c5, c6, c7, c8, c9, c10, c11, c12⟩ :=
          (parseMedia_iff _ p.1 p.2).mp h1
        refine ⟨_, ?_, by rw [c11]; exact .media c1 c2 c3 c4 c5 c6 c7 c8 c9 c10, c12⟩
        rw [e1]
        simp [List.append_assoc]
    case h_16 => cases h
  · rintro ⟨t, rfl, h, hr⟩
    cases h with
    | @version d n h =>
      change (number 255 (d ++ r)).map _ = _
      rw [(number_iff 255 _ n r).mpr ⟨d, rfl, h, hr⟩]; rfl
    | @origin u b1 i b2 v b3 six addr a c1 c2 c3 c4 c5 c6 c7 c8 c9 c10 c11 =>
      have := (parseOrigin_iff (u ++ (b1 ++ (i ++ (b2 ++ (v ++ (b3 ++ (a ++ r))))))) ⟨u, i, v, six, addr⟩ r).mpr
        ⟨u, b1, i, b2, v, b3, a, rfl, c1, c2, c3, c4, c5, c6, c7, c8, c9, c10, c11, rfl, rfl, rfl, hr⟩
      simp only [List.append_assoc]
      change (parseOrigin (u ++ (b1 ++ (i ++ (b2 ++ (v ++ (b3 ++ (a ++ r)))))))).map _ = _
      rw [this]; rfl
    | @name x t h1 h2 =>
      change some (SdpLine.name (restOfLine (x ++ r)).1, (restOfLine (x ++ r)).2) = _
      rw [(rest_iff (x ++ r) t r).mpr ⟨x, rfl, h1, h2, hr⟩]
    | @info x t h1 h2 =>
      change some (SdpLine.info (restOfLine (x ++ r)).1, (restOfLine (x ++ r)).2) = _
      rw [(rest_iff (x ++ r) t r).mpr ⟨x, rfl, h1, h2, hr⟩]
    | @uri x t h1 h2 =>
      change some (SdpLine.uri (restOfLine (x ++ r)).1, (restOfLine (x ++ r)).2) = _
      rw [(rest_iff (x ++ r) t r).mpr ⟨x, rfl, h1, h2, hr⟩]
    | @email x t h1 h2 =>
      change some (SdpLine.email (restOfLine (x ++ r)).1, (restOfLine (x ++ r)).2) = _
      rw [(rest_iff (x ++ r) t r).mpr ⟨x, rfl, h1, h2, hr⟩]
    | @phone x t h1 h2 =>
      change some (SdpLine.phone (restOfLine (x ++ r)).1, (restOfLine (x ++ r)).2) = _
      rw [(rest_iff (x ++ r) t r).mpr ⟨x, rfl, h1, h2, hr⟩]
    | @connection six addr a h =>
      change ((parseAddress (a ++ r)).map _).map _ = _
      rw [(parseAddress_iff (a ++ r) six addr r).mpr ⟨a, rfl, h, hr⟩]; rfl
    | @bandwidth k d n h1 h2 =>
      simp only [List.append_assoc, List.cons_append]
      change (parseBandwidth (k ++ ':' :: (d ++ r))).map _ = _
      rw [(parseBandwidth_iff _ ⟨k, n⟩ r).mpr ⟨d, rfl, h1, h2, hr⟩]; rfl
    | @time d a b e z h1 h2 h3 =>
      simp only [List.append_assoc]
      change (parseTime (d ++ (b ++ (e ++ r)))).map _ = _
      rw [(parseTime_iff _ a z r).mpr ⟨d, b, e, rfl, h1, h2, h3, hr⟩]; rfl
    | @«repeat» x ws q h1 h2 h3 =>
      change some (SdpLine.repeat (repeatOf (splitWhitespace (takeTill isEol (x ++ r)).1)), (takeTill isEol (x ++ r)).2) = _
      rw [(restEq_iff (x ++ r) x r).mpr ⟨rfl, h1, hr⟩]
      simp only
      rw [(words_iff _ _).mp h2, (repeatWords_iff _ _).mp h3]
    | @zone x ws q h1 h2 h3 =>
      change some (SdpLine.zone (zonesOf (splitWhitespace (takeTill isEol (x ++ r)).1)), (takeTill isEol (x ++ r)).2) = _
      rw [(restEq_iff (x ++ r) x r).mpr ⟨rfl, h1, hr⟩]
      simp only
      rw [(words_iff _ _).mp h2, (zoneWords_iff _ _).mp h3]
    | @key x t h1 h2 =>
      change some (SdpLine.key (restOfLine (x ++ r)).1, (restOfLine (x ++ r)).2) = _
      rw [(rest_iff (x ++ r) t r).mpr ⟨x, rfl, h1, h2, hr⟩]
    | @value n v t h1 h2 h3 h4 =>
      simp only [List.append_assoc, List.cons_append]
      change some (SdpLine.attribute (parseAttribute (n ++ ':' :: (v ++ r))).1, (parseAttribute (n ++ ':' :: (v ++ r))).2) = _
      rw [(parseAttribute_iff _ (.value n t) r).mpr ⟨hr, Or.inl ⟨n, v, t, rfl, h1, h2, h3, h4, rfl⟩⟩]
    | @property x t h1 h2 h3 =>
      change some (SdpLine.attribute (parseAttribute (x ++ r)).1, (parseAttribute (x ++ r)).2) = _
      rw [(parseAttribute_iff _ (.property t) r).mpr ⟨hr, Or.inr ⟨x, t, rfl, h1, h2, h3, rfl⟩⟩]
    | @media k kn b1 port num pt b2 p pn b3 fs ft c1 c2 c3 c4 c5 c6 c7 c8 c9 c10 =>
      simp only [List.append_assoc]
      change (parseMedia (kn ++ (b1 ++ (pt ++ (b2 ++ (pn ++ (b3 ++ (ft ++ r)))))))).map _ = _
      rw [(parseMedia_iff _ { kind := k, port := port, numPorts := num, protocol := p, formats := fs } r).mpr
        ⟨kn, b1, pt, b2, pn, b3, ft, rfl, c1, c2, c3, c4, c5, c6, c7, c8, c9, c10, rfl, hr⟩]; rfl

end Siphon.Sdp
