import Verif.Offer.Spec
import Verif.Base.TextLemmas
import Verif.Core.HeadersProps
/-!
# Lemmas: what the engine of sip-core reads
-/
namespace Siphon.Offer
open Siphon.TextSpec Spec

theorem fine_iff (s : Str) (n : Nat) : fine s n = true ↔ Field s n := by
  unfold fine Field
  simp only [Bool.and_eq_true, decide_eq_true_eq, Bool.not_eq_true', List.any_eq_false, Bool.and_eq_true, bne_iff_ne, ne_eq,
    not_and, Decidable.not_not]

theorem first_at {c : Char} {s : Str} (hc : c ∈ s) : ∃ p q, s = p ++ c :: q ∧ c ∉ p := by
  induction s with
  | nil => cases hc
  | cons d s ih =>
    by_cases e : c = d
    · exact ⟨[], s, by simp [e], by simp⟩
    · obtain ⟨p, q, e1, hp⟩ := ih (by simpa [e] using hc)
      exact ⟨d :: p, q, by simp [e1], by simp [e, hp]⟩

theorem splitOnce_some_iff (c : Char) (s a b : Str) : splitOnce c s = some (a, b) ↔ s = a ++ c :: b ∧ c ∉ a := by
  constructor
  · intro h
    by_cases hc : c ∈ s
    · obtain ⟨x, y, rfl, hx⟩ := first_at hc
      rw [splitOnce_append c x y hx] at h
      cases h
      exact ⟨rfl, hx⟩
    · rw [splitOnce_none c s hc] at h
      cases h
  · rintro ⟨rfl, h⟩
    exact splitOnce_append c a b h

theorem paramsOf_iff (rest : List Str) (ps : Option Str) :
    paramsOf rest = some ps ↔ ps = rest.head? ∧ ∀ x, ps = some x → Field x 16 := by
  cases rest with
  | nil => simp [paramsOf, eq_comm]; intro h; subst h; simp
  | cons p rest =>
    simp only [paramsOf, List.head?_cons]
    split
    · next h =>
      rw [fine_iff] at h
      constructor
      · intro e
        cases e
        exact ⟨rfl, fun x e => by cases e; exact h⟩
      · rintro ⟨rfl, _⟩
        rfl
    · next h =>
      constructor
      · intro e
        cases e
      · rintro ⟨rfl, h2⟩
        exact absurd ((fine_iff _ _).mpr (h2 p rfl)) h

theorem rtp_iff (v : Str) (r : RtpMap) : RtpMap.parse v = some r ↔ RtpText v r := by
  obtain ⟨pt, name, clock, params⟩ := r
  unfold RtpMap.parse
  constructor
  · intro h
    split at h
    · cases h
    · next a b e =>
      obtain ⟨e1, e2⟩ := (splitOnce_some_iff _ _ _ _).mp e
      split at h
      · cases h
      · next n hn =>
        obtain ⟨hd, _⟩ := (parseDec_iff _ _ _).mp hn
        split at h
        · next x clk rest hp =>
          repeat' split at h
          all_goals first
            | (cases h; done)
            | (rename_i h1 h2 _ c hc h3 h4 _ ps hps
               cases h
               obtain ⟨hc1, _⟩ := (parseDec_iff _ _ _).mp hc
               obtain ⟨hps1, hps2⟩ := (paramsOf_iff _ _).mp hps
               refine ⟨a, b, clk, rest, e1, e2, hd, by simpa using h1, (pieces_iff _ _ _).mpr hp.symm, ?_, hc1,
                 by simp only; omega, by simpa using h4, hps1, hps2⟩
               exact (fine_iff _ _).mp (by simpa using h2))
        · cases h
  · rintro ⟨a, b, clk, rest, e1, e2, hd, h1, hp, h2, hc, h3, h4, hps1, hps2⟩
    rw [(splitOnce_some_iff _ _ _ _).mpr ⟨e1, e2⟩]
    simp only
    rw [(parseDec_iff 255 a pt).mpr ⟨hd, Nat.le_trans h1 (by decide)⟩]
    simp only
    rw [← (pieces_iff _ _ _).mp hp]
    simp only
    rw [if_neg (by simp only at h1; omega), if_neg (by rw [(fine_iff _ _).mpr h2]; decide),
      (parseDec_iff 4294967295 clk clock).mpr ⟨hc, Nat.le_trans h4 (by decide)⟩]
    simp only at h3 h4 ⊢
    rw [if_neg (by omega), if_neg (by omega), (paramsOf_iff _ _).mpr ⟨hps1, hps2⟩]

theorem rtp_unique {v : Str} {r r' : RtpMap} (h : RtpText v r) (h' : RtpText v r') : r = r' := by
  have a := (rtp_iff v r).mpr h
  rw [(rtp_iff v r').mpr h'] at a
  exact (Option.some.inj a).symm

theorem says_iff (a : Attr) (r : RtpMap) :
    Says a r ↔ a.name = "rtpmap".toList ∧ a.value.bind RtpMap.parse = some r := by
  unfold Says
  cases a.value with
  | none => simp
  | some v => simp [rtp_iff]

theorem static_iff (p : Str) (r : RtpMap) : staticMap p = some r ↔ Static p r := by
  unfold staticMap Static
  constructor
  · intro h
    repeat' split at h
    all_goals first
      | (cases h; done)
      | (rename_i e
         cases h
         simp [e])
  · rintro ⟨e, he, rfl, rfl⟩
    simp only [List.mem_cons, List.not_mem_nil, or_false] at he
    rcases he with rfl | rfl | rfl | rfl | rfl | rfl <;> decide +kernel

theorem static_show (p : Str) (r : RtpMap) (h : Static p r) : p = showNat r.payload := by
  obtain ⟨e, he, rfl, rfl⟩ := h
  simp only [List.mem_cons, List.not_mem_nil, or_false] at he
  rcases he with rfl | rfl | rfl | rfl | rfl | rfl <;> decide +kernel

/-- The last attribute about the payload type. -/
def Mapped (as : List Attr) (r : RtpMap) : Prop :=
  ∃ pre a post, as = pre ++ a :: post ∧ Says a r ∧ Unmapped post r.payload

theorem mapped_cons (a : Attr) (as : List Attr) (r : RtpMap) :
    Mapped (a :: as) r ↔ Mapped as r ∨ (Says a r ∧ Unmapped as r.payload) := by
  constructor
  · rintro ⟨pre, b, post, e, h1, h2⟩
    cases pre with
    | nil =>
      cases e
      exact Or.inr ⟨h1, h2⟩
    | cons c pre =>
      cases e
      exact Or.inl ⟨pre, b, post, rfl, h1, h2⟩
  · rintro (⟨pre, b, post, rfl, h1, h2⟩ | ⟨h1, h2⟩)
    · exact ⟨a :: pre, b, post, rfl, h1, h2⟩
    · exact ⟨[], a, as, rfl, h1, h2⟩

theorem unmapped_cons (a : Attr) (as : List Attr) (n : Nat) :
    Unmapped (a :: as) n ↔ (∀ r, Says a r → r.payload ≠ n) ∧ Unmapped as n := by
  simp [Unmapped]

theorem says_unique {a : Attr} {r r' : RtpMap} (h : Says a r) (h' : Says a r') : r = r' := by
  have h1 := ((says_iff _ _).mp h).2
  rw [((says_iff _ _).mp h').2] at h1
  exact (Option.some.inj h1).symm

theorem explicit_get (as : List Attr) (t : Tbl Str RtpMap) (p : Str) (r : RtpMap) :
    (explicitMaps as t).get p = some r ↔
      (Mapped as r ∧ p = showNat r.payload) ∨ (t.get p = some r ∧ ∀ n, p = showNat n → Unmapped as n) := by
  induction as generalizing t with
  | nil => simp [explicitMaps, Mapped, Unmapped]
  | cons a as ih =>
    have quiet : (∀ q, ¬ Says a q) → ((explicitMaps as t).get p = some r ↔
        (Mapped (a :: as) r ∧ p = showNat r.payload) ∨ (t.get p = some r ∧ ∀ n, p = showNat n → Unmapped (a :: as) n)) := by
      intro hq
      rw [ih]
      simp [mapped_cons, unmapped_cons, hq]
    unfold explicitMaps
    split
    · next hn =>
      split
      · next q hq =>
        have hs : Says a q := (says_iff _ _).mpr ⟨hn, hq⟩
        rw [ih]
        by_cases hp : p = showNat q.payload
        · subst hp
          rw [Tbl.get_insert_self]
          constructor
          · rintro (⟨h, e⟩ | ⟨h, hu⟩)
            · exact Or.inl ⟨(mapped_cons _ _ _).mpr (Or.inl h), e⟩
            · cases h
              exact Or.inl ⟨(mapped_cons _ _ _).mpr (Or.inr ⟨hs, hu _ rfl⟩), rfl⟩
          · rintro (⟨h, e⟩ | ⟨h, hu⟩)
            · rcases (mapped_cons _ _ _).mp h with h | ⟨h, hu⟩
              · exact Or.inl ⟨h, e⟩
              · cases says_unique hs h
                exact Or.inr ⟨rfl, fun n e => by cases showNat_inj e; exact hu⟩
            · exact absurd rfl (((unmapped_cons _ _ _).mp (hu _ rfl)).1 q hs)
        · rw [Tbl.get_insert_ne _ _ hp]
          constructor
          · rintro (⟨h, e⟩ | ⟨h, hu⟩)
            · exact Or.inl ⟨(mapped_cons _ _ _).mpr (Or.inl h), e⟩
            · refine Or.inr ⟨h, fun n e => (unmapped_cons _ _ _).mpr ⟨fun q' hq' en => ?_, hu n e⟩⟩
              cases says_unique hs hq'
              subst en
              exact hp e
          · rintro (⟨h, e⟩ | ⟨h, hu⟩)
            · rcases (mapped_cons _ _ _).mp h with h | ⟨h, _⟩
              · exact Or.inl ⟨h, e⟩
              · cases says_unique hs h
                exact absurd e hp
            · exact Or.inr ⟨h, fun n e => ((unmapped_cons _ _ _).mp (hu n e)).2⟩
      · next hq =>
        apply quiet
        intro q hs
        rw [((says_iff _ _).mp hs).2] at hq
        cases hq
    · next hn =>
      apply quiet
      intro q hs
      exact hn hs.1

theorem explicit_nodup (as : List Attr) (t : Tbl Str RtpMap) (h : (Tbl.keys t).Nodup) : (Tbl.keys (explicitMaps as t)).Nodup := by
  induction as generalizing t with
  | nil => exact h
  | cons a as ih =>
    unfold explicitMaps
    repeat' split
    · exact ih _ (Tbl.nodup_insert _ _ _ h)
    · exact ih _ h
    · exact ih _ h

theorem statics_nodup (fs : List Str) (t : Tbl Str RtpMap) (h : (Tbl.keys t).Nodup) : (Tbl.keys (staticMaps fs t)).Nodup := by
  induction fs generalizing t with
  | nil => exact h
  | cons a as ih =>
    unfold staticMaps
    repeat' split
    · exact ih _ h
    · exact ih _ (Tbl.nodup_insert _ _ _ h)
    · exact ih _ h

theorem statics_get (fs : List Str) (t : Tbl Str RtpMap) (p : Str) (r : RtpMap) :
    (staticMaps fs t).get p = some r ↔ t.get p = some r ∨ (t.get p = none ∧ p ∈ fs ∧ Static p r) := by
  induction fs generalizing t with
  | nil => simp [staticMaps]
  | cons f fs ih =>
    unfold staticMaps
    split
    · next hc =>
      rw [ih]
      have hc : (t.get f).isSome = true := hc
      by_cases e : p = f
      · subst e
        cases hg : t.get p with
        | none => rw [hg] at hc; cases hc
        | some x => simp
      · simp [e]
    · next hc =>
      have hc : t.get f = none := by
        cases hg : t.get f with
        | none => rfl
        | some x => exact absurd (show (t.get f).isSome = true by rw [hg]; rfl) hc
      split
      · next q hq =>
        rw [ih]
        by_cases e : p = f
        · subst e
          rw [Tbl.get_insert_self, hc]
          simp only [Option.some.injEq, reduceCtorEq, false_and, or_false, false_or, List.mem_cons, true_or, true_and]
          rw [← static_iff, hq]
          simp
        · rw [Tbl.get_insert_ne _ _ e]
          simp [e]
      · next hq =>
        rw [ih]
        by_cases e : p = f
        · subst e
          rw [hc]
          simp only [reduceCtorEq, true_and, false_or, List.mem_cons, true_or]
          rw [← static_iff, hq]
          simp
        · simp [e]

theorem maps_nodup (m : Media) : (Tbl.keys (mapsOf m)).Nodup :=
  statics_nodup _ _ (explicit_nodup _ _ (by simp [Tbl.keys]))

theorem mapped_or (as : List Attr) (n : Nat) : Unmapped as n ∨ ∃ r, r.payload = n ∧ Mapped as r := by
  induction as with
  | nil => exact Or.inl (by simp [Unmapped])
  | cons a as ih =>
    rcases ih with h | ⟨r, e, h⟩
    · by_cases hs : ∃ r, Says a r ∧ r.payload = n
      · obtain ⟨r, hs, e⟩ := hs
        exact Or.inr ⟨r, e, (mapped_cons _ _ _).mpr (Or.inr ⟨hs, e ▸ h⟩)⟩
      · exact Or.inl ((unmapped_cons _ _ _).mpr ⟨fun r h1 h2 => hs ⟨r, h1, h2⟩, h⟩)
    · exact Or.inr ⟨r, e, (mapped_cons _ _ _).mpr (Or.inl h)⟩

theorem maps_get (m : Media) (p : Str) (r : RtpMap) : (mapsOf m).get p = some r ↔ Means m p r := by
  unfold mapsOf
  rw [statics_get, explicit_get]
  constructor
  · rintro ((⟨⟨pre, a, post, e, h1, h2⟩, rfl⟩ | ⟨h, _⟩) | ⟨h, hf, hs⟩)
    · exact .explicit e h1 h2
    · cases h
    · refine .static hf hs ?_
      rcases mapped_or m.attributes r.payload with hu | ⟨q, e, hm⟩
      · exact hu
      · have := (explicit_get m.attributes [] p q).mpr (Or.inl ⟨hm, by rw [e]; exact static_show _ _ hs⟩)
        rw [h] at this
        cases this
  · intro h
    cases h with
    | explicit e h1 h2 => exact Or.inl (Or.inl ⟨⟨_, _, _, e, h1, h2⟩, rfl⟩)
    | static hf hs hu =>
      refine Or.inr ⟨?_, hf, hs⟩
      cases hg : (explicitMaps m.attributes []).get p with
      | none => rfl
      | some q =>
        exfalso
        rcases (explicit_get _ _ _ _).mp hg with ⟨⟨pre, a, post, e, h1, _⟩, e2⟩ | ⟨h, _⟩
        · exact hu a (by rw [e]; simp) q h1 (showNat_inj (e2.symm.trans (static_show _ _ hs)))
        · cases h

theorem means_unique {m : Media} {p : Str} {r r' : RtpMap} (h : Means m p r) (h' : Means m p r') : r = r' := by
  have a := (maps_get m p r).mpr h
  rw [(maps_get m p r').mpr h'] at a
  exact (Option.some.inj a).symm

theorem means_show {m : Media} {p : Str} {r : RtpMap} (h : Means m p r) : p = showNat r.payload := by
  cases h with
  | explicit => rfl
  | static _ hs _ => exact static_show _ _ hs

theorem matches_iff (c : Codec) (r : RtpMap) :
    c.matches r = true ↔ HdrSpec.SameName c.name r.name ∧ c.clock = r.clock ∧ Channels c.channels r.params := by
  unfold Codec.matches
  rw [sameName_iff]
  split
  · next h => simp at h; simp [h]
  · next h =>
    have h : eqIgnoreCase c.name r.name = true := by simpa using h
    split
    · next h2 => simp [h2]
    · next h2 =>
      have h2 : c.clock = r.clock := by simpa using h2
      simp only [h, h2, true_and]
      unfold Channels
      repeat' split
      all_goals first
        | (next n p _ => simp [parseDec_iff]; done)
        | simp_all [parseDec_iff]

theorem supports_iff (cs : List Codec) (r : RtpMap) : cs.any (fun c => c.matches r) = true ↔ Supports cs r := by
  simp [Supports, List.any_eq_true, matches_iff]

end Siphon.Offer
