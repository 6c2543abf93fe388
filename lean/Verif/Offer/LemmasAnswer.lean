import Verif.Offer.Lemmas
/-!
# Lemmas: the attributes of an answer
-/
namespace Siphon.Offer
open Siphon.TextSpec Spec

/-! ## Directions -/

theorem word_iff (s : Str) (x : Bool × Bool) : Word s x ↔ ∃ d, Dir.parse s = some d ∧ x = Pair d := by
  unfold Word Dir.parse
  constructor
  · intro h
    simp only [List.mem_cons, List.not_mem_nil, or_false, Prod.mk.injEq] at h
    rcases h with ⟨rfl, rfl⟩ | ⟨rfl, rfl⟩ | ⟨rfl, rfl⟩ | ⟨rfl, rfl⟩
    · exact ⟨.sendrecv, by decide, rfl⟩
    · exact ⟨.sendonly, by decide, rfl⟩
    · exact ⟨.recvonly, by decide, rfl⟩
    · exact ⟨.inactive, by decide, rfl⟩
  · rintro ⟨d, h, rfl⟩
    repeat' split at h
    all_goals first
      | (cases h; done)
      | (cases h; rename_i e; subst e; decide +kernel)

theorem parse_asStr (d : Dir) : Dir.parse d.asStr = some d := by cases d <;> decide

theorem isDir_iff (a : Attr) (x : Bool × Bool) :
    IsDir a x ↔ a.value = none ∧ ∃ d, Dir.parse a.name = some d ∧ x = Pair d := by
  unfold IsDir
  rw [word_iff]

theorem pair_inj {d d' : Dir} (h : Pair d = Pair d') : d = d' := by
  cases d <;> cases d' <;> first | rfl | (simp [Pair] at h)

theorem declares_cons_dir {a : Attr} {x : Bool × Bool} (as : List Attr) (h : IsDir a x) (y : Bool × Bool) :
    Declares (a :: as) y ↔ y = x := by
  have uniq : ∀ z, IsDir a z → z = x := by
    intro z hz
    obtain ⟨_, d, h1, rfl⟩ := (isDir_iff _ _).mp h
    obtain ⟨_, d', h2, rfl⟩ := (isDir_iff _ _).mp hz
    rw [h1] at h2
    cases h2
    rfl
  constructor
  · rintro (⟨pre, b, post, e, h1, h2⟩ | ⟨h1, _⟩)
    · cases pre with
      | nil => cases e; exact uniq _ h1
      | cons c pre =>
        cases e
        exact absurd h (h2 a (by simp) x)
    · exact absurd h (h1 a (by simp) x)
  · rintro rfl
    exact Or.inl ⟨[], a, as, rfl, h, by simp⟩

theorem declares_cons_other {a : Attr} (as : List Attr) (h : ∀ x, ¬ IsDir a x) (y : Bool × Bool) :
    Declares (a :: as) y ↔ Declares as y := by
  constructor
  · rintro (⟨pre, b, post, e, h1, h2⟩ | ⟨h1, h2⟩)
    · cases pre with
      | nil => cases e; exact absurd h1 (h _)
      | cons c pre =>
        cases e
        exact Or.inl ⟨pre, b, post, rfl, h1, fun b hb => h2 b (by simp [hb])⟩
    · exact Or.inr ⟨fun b hb => h1 b (by simp [hb]), h2⟩
  · rintro (⟨pre, b, post, rfl, h1, h2⟩ | ⟨h1, h2⟩)
    · refine Or.inl ⟨a :: pre, b, post, rfl, h1, fun b hb => ?_⟩
      rcases List.mem_cons.mp hb with rfl | hb
      · exact h
      · exact h2 b hb
    · refine Or.inr ⟨fun b hb => ?_, h2⟩
      rcases List.mem_cons.mp hb with rfl | hb
      · exact h
      · exact h1 b hb

theorem declares_iff (as : List Attr) (x : Bool × Bool) : Declares as x ↔ x = Pair (directionOf as) := by
  induction as with
  | nil => simp [Declares, First, directionOf, Pair]
  | cons a as ih =>
    unfold directionOf
    split
    · next hv =>
      have hv : a.value = none := by simpa using hv
      split
      · next d hd =>
        exact declares_cons_dir as ((isDir_iff _ _).mpr ⟨hv, d, hd, rfl⟩) x
      · next hd =>
        rw [declares_cons_other as (by
          intro y hy
          obtain ⟨_, d, h1, _⟩ := (isDir_iff _ _).mp hy
          rw [hd] at h1
          cases h1), ih]
    · next hv =>
      rw [declares_cons_other as (by
        intro y hy
        exact hv (by rw [hy.1]; rfl)), ih]

theorem directionOf_append (as bs : List Attr) (h : ∀ a ∈ as, a.value ≠ none) : directionOf (as ++ bs) = directionOf bs := by
  induction as with
  | nil => rfl
  | cons a as ih =>
    have := h a (by simp)
    simp only [List.cons_append, directionOf]
    rw [if_neg (by simpa using this), ih (fun b hb => h b (by simp [hb]))]

theorem pair_answer (d : Dir) : Pair d.answer = ((Pair d).2, (Pair d).1) := by cases d <;> rfl

/-! ## Formats -/

theorem codecAttrs_value (as : List Attr) (es : List (Str × RtpMap)) : ∀ a ∈ codecAttrs as es, a.value ≠ none := by
  induction es with
  | nil => simp [codecAttrs]
  | cons e es ih =>
    intro a ha
    simp only [codecAttrs, List.mem_cons, List.mem_append] at ha
    rcases ha with rfl | ha | ha
    · simp
    · split at ha
      · simp at ha; rw [ha]; simp
      · cases ha
    · exact ih a ha

theorem digits_free {s : Str} {n : Nat} (h : DecDigits s n) (c : Char) (hc : ¬ (48 ≤ c.toNat ∧ c.toNat ≤ 57)) : c ∉ s := by
  induction h with
  | one h1 h2 =>
    intro h
    simp at h
    subst h
    exact hc ⟨h1, h2⟩
  | snoc _ h1 h2 ih =>
    intro h
    rcases List.mem_append.mp h with h | h
    · exact ih h
    · simp at h
      subst h
      exact hc ⟨h1, h2⟩

theorem showNat_decimal (n : Nat) : Decimal (showNat n) n := ((parseDec_iff n _ n).mp (parseDec_showNat n n (Nat.le_refl n))).1

theorem showNat_free (n : Nat) (c : Char) (hc : ¬ (48 ≤ c.toNat ∧ c.toNat ≤ 57)) (hp : c ≠ '+') : c ∉ showNat n := by
  rcases showNat_decimal n with h | ⟨r, e, h⟩
  · exact digits_free h c hc
  · rw [e]
    intro h2
    rcases List.mem_cons.mp h2 with h2 | h2
    · exact hp h2
    · exact digits_free h c hc h2

/-- A map is read back as it was written. -/
theorem rtp_show {v : Str} {r : RtpMap} (h : RtpText v r) : RtpText r.show r := by
  obtain ⟨a, b, clk, rest, _, _, _, h1, hp, h2, _, h3, h4, hps1, hps2⟩ := h
  have hs : ' ' ∉ showNat r.payload := showNat_free _ _ (by decide) (by decide)
  have hc : '/' ∉ showNat r.clock := showNat_free _ _ (by decide) (by decide)
  have hn : '/' ∉ r.name := hp.2.2 _ (by simp)
  unfold RtpMap.show
  cases hr : r.params with
  | none =>
    refine ⟨showNat r.payload, r.name ++ '/' :: showNat r.clock, showNat r.clock, [], by simp, hs, showNat_decimal _, h1,
      ⟨by simp, by simp [join], ?_⟩, h2, showNat_decimal _, h3, h4, by rw [hr]; rfl, ?_⟩
    · intro p hp
      simp only [List.mem_cons, List.not_mem_nil, or_false] at hp
      rcases hp with rfl | rfl
      · exact hn
      · exact hc
    · intro x e
      rw [hr] at e
      cases e
  | some x =>
    have hx : '/' ∉ x := by
      cases rest with
      | nil => rw [hr] at hps1; cases hps1
      | cons y rest =>
        rw [hr] at hps1
        cases hps1
        exact hp.2.2 _ (by simp)
    refine ⟨showNat r.payload, r.name ++ '/' :: (showNat r.clock ++ '/' :: x), showNat r.clock, [x], by simp, hs, showNat_decimal _, h1,
      ⟨by simp, by simp [join], ?_⟩, h2, showNat_decimal _, h3, h4, by rw [hr]; rfl, ?_⟩
    · intro p hp
      simp only [List.mem_cons, List.not_mem_nil, or_false] at hp
      rcases hp with rfl | rfl | rfl
      · exact hn
      · exact hc
      · exact hx
    · exact hps2

theorem static_text {p : Str} {r : RtpMap} (h : Static p r) : RtpText r.show r := by
  obtain ⟨e, he, rfl, rfl⟩ := h
  rw [← rtp_iff]
  simp only [List.mem_cons, List.not_mem_nil, or_false] at he
  rcases he with rfl | rfl | rfl | rfl | rfl | rfl <;> decide +kernel

theorem means_text {m : Media} {p : Str} {r : RtpMap} (h : Means m p r) : RtpText r.show r := by
  cases h with
  | explicit _ h1 _ =>
    obtain ⟨_, v, _, h⟩ := h1
    exact rtp_show h
  | static _ hs _ => exact static_text hs

theorem fmtpParse_iff (v f ps : Str) :
    fmtpParse v = some (f, ps) ↔ v = f ++ ' ' :: ps ∧ ' ' ∉ f ∧ Field f 16 ∧ Field ps 1024 := by
  unfold fmtpParse
  constructor
  · intro h
    split at h
    · cases h
    · next a b e =>
      split at h
      · next hf =>
        cases h
        simp only [Bool.and_eq_true, fine_iff] at hf
        obtain ⟨h1, h2⟩ := (splitOnce_some_iff _ _ _ _).mp e
        exact ⟨h1, h2, hf.1, hf.2⟩
      · cases h
  · rintro ⟨h1, h2, h3, h4⟩
    rw [(splitOnce_some_iff _ _ _ _).mpr ⟨h1, h2⟩]
    simp only
    rw [if_pos (by simp [fine_iff, h3, h4])]

/-- The attribute gives the value to the format. -/
def Gives (p : Str) (a : Attr) (v : Str) : Prop := a.name = "fmtp".toList ∧ a.value = some v ∧ FmtpText p v

theorem first_cons_some {α β : Type} {P : α → β → Prop} (a : α) (as : List α) (x : β) (h : P a x) (u : ∀ y, P a y → y = x) (y : β) :
    First P (a :: as) y ↔ y = x := by
  constructor
  · rintro ⟨pre, b, post, e, h1, h2⟩
    cases pre with
    | nil => cases e; exact u _ h1
    | cons c pre => cases e; exact absurd h (h2 a (by simp) x)
  · rintro rfl
    exact ⟨[], a, as, rfl, h, by simp⟩

theorem first_cons_none {α β : Type} {P : α → β → Prop} (a : α) (as : List α) (h : ∀ x, ¬ P a x) (y : β) :
    First P (a :: as) y ↔ First P as y := by
  constructor
  · rintro ⟨pre, b, post, e, h1, h2⟩
    cases pre with
    | nil => cases e; exact absurd h1 (h _)
    | cons c pre => cases e; exact ⟨pre, b, post, rfl, h1, fun b hb => h2 b (by simp [hb])⟩
  · rintro ⟨pre, b, post, rfl, h1, h2⟩
    refine ⟨a :: pre, b, post, rfl, h1, fun b hb => ?_⟩
    rcases List.mem_cons.mp hb with rfl | hb
    · exact h
    · exact h2 b hb

theorem first_append_none {α β : Type} {P : α → β → Prop} (as bs : List α) (h : ∀ a ∈ as, ∀ x, ¬ P a x) (y : β) :
    First P (as ++ bs) y ↔ First P bs y := by
  induction as with
  | nil => rfl
  | cons a as ih =>
    rw [List.cons_append, first_cons_none _ _ (h a (by simp)), ih (fun b hb => h b (by simp [hb]))]

theorem fmtpFor_iff (as : List Attr) (p v : Str) : fmtpFor as p = some v ↔ FmtpOf as p v := by
  unfold FmtpOf
  induction as with
  | nil => simp [fmtpFor, First]
  | cons a as ih =>
    have quiet : (∀ x, ¬ Gives p a x) → (fmtpFor as p = some v ↔ First (Gives p) (a :: as) v) := by
      intro h
      rw [first_cons_none _ _ h]
      exact ih
    unfold fmtpFor
    split
    · next hn =>
      split
      · next w hw =>
        split
        · next f ps hf =>
          split
          · next e =>
            subst e
            have hg : Gives f a w := ⟨hn, hw, ps, (fmtpParse_iff _ _ _).mp hf⟩
            have := first_cons_some (P := Gives f) a as w hg (fun y hy => by
              have := hy.2.1
              rw [hw] at this
              exact (Option.some.inj this).symm) v
            refine Iff.trans ?_ this.symm
            simp [eq_comm]
          · next e =>
            apply quiet
            rintro x ⟨_, h2, ps', h3⟩
            rw [hw] at h2
            cases h2
            have := (fmtpParse_iff w p ps').mpr h3
            rw [hf] at this
            cases this
            exact e rfl
        · next hf =>
          apply quiet
          rintro x ⟨_, h2, ps', h3⟩
          rw [hw] at h2
          cases h2
          rw [(fmtpParse_iff w p ps').mpr h3] at hf
          cases hf
      · next hw =>
        apply quiet
        rintro x ⟨_, h2, _⟩
        rw [hw] at h2
        cases h2
    · next hn =>
      apply quiet
      rintro x ⟨h1, _⟩
      exact hn h1

theorem fmtpText_inj {p q v : Str} (h : FmtpText p v) (h' : FmtpText q v) : p = q := by
  obtain ⟨a, h⟩ := h
  obtain ⟨b, h'⟩ := h'
  have := (fmtpParse_iff v p a).mpr h
  rw [(fmtpParse_iff v q b).mpr h'] at this
  cases this
  rfl

/-- Another format's attribute gives nothing to this one. -/
theorem gives_other {as : List Attr} {p q v : Str} (h : FmtpOf as q v) (hne : p ≠ q) (x : Str) :
    ¬ Gives p ⟨"fmtp".toList, some v⟩ x := by
  rintro ⟨_, h2, h3⟩
  cases h2
  obtain ⟨pre, a, post, _, h, _⟩ := h
  exact hne (fmtpText_inj h3 h.2.2)

theorem gives_rtpmap (p w x : Str) : ¬ Gives p ⟨"rtpmap".toList, some w⟩ x := by
  rintro ⟨h, _⟩
  exact absurd (show "rtpmap".toList = "fmtp".toList from h) (by decide)

theorem gives_codecs (as : List Attr) (es : List (Str × RtpMap)) (p : Str) (h : p ∉ es.map (·.1)) :
    ∀ a ∈ codecAttrs as es, ∀ x, ¬ Gives p a x := by
  induction es with
  | nil => simp [codecAttrs]
  | cons e es ih =>
    simp only [List.map_cons, List.mem_cons, not_or] at h
    intro a ha x
    simp only [codecAttrs, List.mem_cons, List.mem_append] at ha
    rcases ha with rfl | ha | ha
    · exact gives_rtpmap _ _ _
    · split at ha
      · next v hv =>
        simp at ha
        subst ha
        exact gives_other ((fmtpFor_iff _ _ _).mp hv) h.1 x
      · cases ha
    · exact ih h.2 a ha x

theorem fmtp_codecs (as rest : List Attr) (es : List (Str × RtpMap)) (hn : (es.map (·.1)).Nodup)
    (hr : ∀ a ∈ rest, a.name ≠ "fmtp".toList) (p : Str) (hp : p ∈ es.map (·.1)) (v : Str) :
    FmtpOf (codecAttrs as es ++ rest) p v ↔ FmtpOf as p v := by
  have hrest : ∀ q, ∀ a ∈ rest, ∀ x, ¬ Gives q a x := fun q a ha x h => hr a ha h.1
  induction es with
  | nil => cases hp
  | cons e es ih =>
    simp only [List.map_cons, List.nodup_cons] at hn
    unfold codecAttrs
    simp only [List.cons_append, List.append_assoc]
    unfold FmtpOf
    rw [show (First (fun a v => a.name = "fmtp".toList ∧ a.value = some v ∧ FmtpText p v)) = First (Gives p) from rfl]
    rw [first_cons_none _ _ (gives_rtpmap p _)]
    by_cases hpe : p = e.1
    · subst hpe
      cases hv : fmtpFor as e.1 with
      | none =>
        simp only [List.nil_append]
        rw [first_append_none _ _ (gives_codecs as es _ hn.1)]
        constructor
        · rintro ⟨pre, a, post, e, h1, _⟩
          exact absurd h1 (hrest _ a (by rw [e]; simp) _)
        · intro h
          have := (fmtpFor_iff as e.1 v).mpr h
          rw [hv] at this
          cases this
      | some w =>
        have hw := (fmtpFor_iff as e.1 w).mp hv
        have hg : Gives e.1 ⟨"fmtp".toList, some w⟩ w := by
          obtain ⟨_, a, _, _, h, _⟩ := hw
          exact ⟨rfl, rfl, h.2.2⟩
        simp only [List.cons_append, List.nil_append]
        rw [first_cons_some _ _ w hg (fun y hy => by have := hy.2.1; exact (Option.some.inj this).symm)]
        constructor
        · rintro rfl
          exact hw
        · intro h
          have := (fmtpFor_iff as e.1 v).mpr h
          rw [hv] at this
          exact (Option.some.inj this).symm
    · have hp' : p ∈ es.map (·.1) := by
        simp only [List.map_cons, List.mem_cons] at hp
        exact hp.resolve_left hpe
      have : ∀ l : List Attr, First (Gives p) ((match fmtpFor as e.1 with
          | some v => [⟨"fmtp".toList, some v⟩]
          | none => []) ++ l) v ↔ First (Gives p) l v := by
        intro l
        apply first_append_none
        intro a ha x
        split at ha
        · next w hw =>
          simp at ha
          subst ha
          exact gives_other ((fmtpFor_iff _ _ _).mp hw) hpe x
        · cases ha
      exact (this _).trans (ih hn.2 hp')

/-- What the attributes for the formats say. -/
theorem says_codecs (as : List Attr) (es : List (Str × RtpMap)) (ht : ∀ e ∈ es, RtpText e.2.show e.2) (r : RtpMap) :
    (∃ a ∈ codecAttrs as es, Says a r) ↔ ∃ p, (p, r) ∈ es := by
  induction es with
  | nil => simp [codecAttrs]
  | cons e es ih =>
    have ih := ih (fun x hx => ht x (by simp [hx]))
    constructor
    · rintro ⟨a, ha, hs⟩
      simp only [codecAttrs, List.mem_cons, List.mem_append] at ha
      rcases ha with rfl | ha | ha
      · obtain ⟨_, v, hv, h⟩ := hs
        cases hv
        cases rtp_unique h (ht e (by simp))
        exact ⟨e.1, by simp⟩
      · exfalso
        split at ha
        · simp at ha
          subst ha
          exact absurd (show "fmtp".toList = "rtpmap".toList from hs.1) (by decide)
        · cases ha
      · obtain ⟨p, hp⟩ := ih.mp ⟨a, ha, hs⟩
        exact ⟨p, by simp [hp]⟩
    · rintro ⟨p, hp⟩
      rcases List.mem_cons.mp hp with hp | hp
      · refine ⟨⟨"rtpmap".toList, some e.2.show⟩, by simp [codecAttrs], rfl, _, rfl, ?_⟩
        rw [← hp] at ht ⊢
        exact ht (p, r) (by simp)
      · obtain ⟨a, ha, hs⟩ := ih.mpr ⟨p, hp⟩
        exact ⟨a, by simp [codecAttrs, ha], hs⟩

/-- When the attributes never say two things about a payload type, what is said counts. -/
theorem mapped_of_says {as : List Attr} {a : Attr} {r : RtpMap} (h : a ∈ as) (hs : Says a r)
    (u : ∀ b ∈ as, ∀ r', Says b r' → r'.payload = r.payload → r' = r) : Mapped as r := by
  rcases mapped_or as r.payload with hu | ⟨q, e, hm⟩
  · exact absurd rfl (hu a h r hs)
  · obtain ⟨pre, b, post, e2, h1, h2⟩ := hm
    have : q = r := u b (by rw [e2]; simp) q h1 e
    subst this
    exact ⟨pre, b, post, e2, h1, h2⟩

end Siphon.Offer
