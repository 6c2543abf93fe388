import Verif.Offer.LemmasAnswer
/-!
# Lemmas: preconditions
-/
namespace Siphon.Offer
open Siphon.TextSpec Spec

theorem toLower_nat (c : Char) :
    (65 ≤ c.toNat ∧ c.toNat ≤ 90 ∧ c.toLower.toNat = c.toNat + 32) ∨ (¬ (65 ≤ c.toNat ∧ c.toNat ≤ 90) ∧ c.toLower = c) := by
  by_cases h : 65 ≤ c.toNat ∧ c.toNat ≤ 90
  · refine Or.inl ⟨h.1, h.2, ?_⟩
    have : c = Char.ofNat c.toNat := (Char.ofNat_toNat c).symm
    obtain ⟨h1, h2⟩ := h
    generalize hn : c.toNat = n at *
    subst this
    have : n = 65 ∨ n = 66 ∨ n = 67 ∨ n = 68 ∨ n = 69 ∨ n = 70 ∨ n = 71 ∨ n = 72 ∨ n = 73 ∨ n = 74 ∨ n = 75 ∨ n = 76 ∨ n = 77 ∨
      n = 78 ∨ n = 79 ∨ n = 80 ∨ n = 81 ∨ n = 82 ∨ n = 83 ∨ n = 84 ∨ n = 85 ∨ n = 86 ∨ n = 87 ∨ n = 88 ∨ n = 89 ∨ n = 90 := by omega
    rcases this with rfl | rfl | rfl | rfl | rfl | rfl | rfl | rfl | rfl | rfl | rfl | rfl | rfl | rfl | rfl | rfl | rfl |
      rfl | rfl | rfl | rfl | rfl | rfl | rfl | rfl | rfl <;> decide
  · refine Or.inr ⟨h, ?_⟩
    unfold Char.toLower
    split
    · next h2 =>
      exfalso
      apply h
      constructor
      · have := h2.1; exact this
      · have := h2.2; exact this
    · rfl

/-- A character in lower case. -/
def Small (c : Char) : Prop := ¬ (65 ≤ c.toNat ∧ c.toNat ≤ 90) ∧ c.toNat ≠ 0x212A

theorem folds_iff (c d : Char) (hd : Small d) : Folds c d ↔ lowerU c = d := by
  unfold Folds lowerU
  by_cases hk : c = '\u212A'
  · subst hk
    rw [if_pos rfl]
    constructor
    · rintro (rfl | ⟨_, h, _⟩ | ⟨_, rfl⟩)
      · exact absurd rfl hd.2
      · exact absurd h (by decide)
      · rfl
    · rintro rfl
      exact Or.inr (Or.inr ⟨by decide, rfl⟩)
  · rw [if_neg hk]
    have hk' : c.toNat ≠ 0x212A := by
      intro h
      apply hk
      rw [← Char.ofNat_toNat c, h]
    rcases toLower_nat c with ⟨h1, h2, h3⟩ | ⟨h1, h2⟩
    · constructor
      · rintro (rfl | ⟨_, _, h⟩ | ⟨h, _⟩)
        · exact absurd ⟨h1, h2⟩ hd.1
        · rw [← Char.ofNat_toNat d, h, ← h3, Char.ofNat_toNat]
        · exact absurd h hk'
      · rintro rfl
        exact Or.inr (Or.inl ⟨h1, h2, h3⟩)
    · rw [h2]
      constructor
      · rintro (rfl | ⟨h3, h4, _⟩ | ⟨h, _⟩)
        · rfl
        · exact absurd ⟨h3, h4⟩ h1
        · exact absurd h hk'
      · exact Or.inl

theorem forall2_folds (s w : Str) (hw : ∀ d ∈ w, Small d) : List.Forall₂ Folds s w ↔ s.map lowerU = w := by
  induction s generalizing w with
  | nil => cases w <;> simp
  | cons c s ih =>
    cases w with
    | nil => simp
    | cons d w =>
      rw [List.forall₂_cons, folds_iff _ _ (hw d (by simp)), ih w (fun x hx => hw x (by simp [hx]))]
      simp

theorem reads_iff (s : Str) (w : String) (hw : ∀ d ∈ w.toList, Small d) : Reads s w ↔ lowers s w = true := by
  unfold Reads lowers
  rw [forall2_folds _ _ hw, beq_iff_eq]

instance (c : Char) : Decidable (Small c) := by unfold Small; infer_instance

theorem lowers_eq {s : Str} {w : String} (h : lowers s w = true) : s.map lowerU = w.toList := by simpa [lowers] using h

theorem status_iff (s : Str) (x : Status) : Status.parse s = some x ↔ StatusWord s x := by
  have h1 := reads_iff s "e2e" (by decide)
  have h2 := reads_iff s "local" (by decide)
  have h3 := reads_iff s "remote" (by decide)
  unfold Status.parse
  constructor
  · intro h
    repeat' split at h
    all_goals first
      | (cases h; done)
      | (cases h; rename_i e; first | exact .e2e (h1.mpr e) | exact .near (h2.mpr e) | exact .remote (h3.mpr e))
  · intro h
    cases h with
    | e2e h => rw [if_pos (h1.mp h)]
    | near h =>
      have := h2.mp h
      rw [if_neg (fun e => absurd ((lowers_eq e).symm.trans (lowers_eq this)) (by decide)), if_pos this]
    | remote h =>
      have := h3.mp h
      rw [if_neg (fun e => absurd ((lowers_eq e).symm.trans (lowers_eq this)) (by decide)),
        if_neg (fun e => absurd ((lowers_eq e).symm.trans (lowers_eq this)) (by decide)), if_pos this]

theorem way_iff (s : Str) (x : Way) : Way.parse s = some x ↔ WayWord s x := by
  have h1 := reads_iff s "send" (by decide)
  have h2 := reads_iff s "recv" (by decide)
  have h3 := reads_iff s "sendrecv" (by decide)
  have h4 := reads_iff s "none" (by decide)
  unfold Way.parse
  constructor
  · intro h
    repeat' split at h
    all_goals first
      | (cases h; done)
      | (cases h; rename_i e; first | exact .send (h1.mpr e) | exact .recv (h2.mpr e) | exact .both (h3.mpr e) | exact .none (h4.mpr e))
  · intro h
    cases h with
    | send h => rw [if_pos (h1.mp h)]
    | recv h =>
      have := h2.mp h
      rw [if_neg (fun e => absurd ((lowers_eq e).symm.trans (lowers_eq this)) (by decide)), if_pos this]
    | both h =>
      have := h3.mp h
      rw [if_neg (fun e => absurd ((lowers_eq e).symm.trans (lowers_eq this)) (by decide)),
        if_neg (fun e => absurd ((lowers_eq e).symm.trans (lowers_eq this)) (by decide)), if_pos this]
    | none h =>
      have := h4.mp h
      rw [if_neg (fun e => absurd ((lowers_eq e).symm.trans (lowers_eq this)) (by decide)),
        if_neg (fun e => absurd ((lowers_eq e).symm.trans (lowers_eq this)) (by decide)),
        if_neg (fun e => absurd ((lowers_eq e).symm.trans (lowers_eq this)) (by decide)), if_pos this]

theorem strength_iff (s : Str) (x : Strength) : Strength.parse s = some x ↔ StrengthWord s x := by
  have h1 := reads_iff s "mandatory" (by decide)
  have h2 := reads_iff s "optional" (by decide)
  have h3 := reads_iff s "none" (by decide)
  have h4 := reads_iff s "failure" (by decide)
  have h5 := reads_iff s "unknown" (by decide)
  unfold Strength.parse
  constructor
  · intro h
    repeat' split at h
    all_goals first
      | (cases h; done)
      | (cases h; rename_i e
         first
           | exact .mandatory (h1.mpr e) | exact .optional (h2.mpr e) | exact .none (h3.mpr e) | exact .failure (h4.mpr e)
           | exact .unknown (h5.mpr e))
  · intro h
    cases h with
    | mandatory h => rw [if_pos (h1.mp h)]
    | optional h =>
      have := h2.mp h
      rw [if_neg (fun e => absurd ((lowers_eq e).symm.trans (lowers_eq this)) (by decide)), if_pos this]
    | none h =>
      have := h3.mp h
      rw [if_neg (fun e => absurd ((lowers_eq e).symm.trans (lowers_eq this)) (by decide)),
        if_neg (fun e => absurd ((lowers_eq e).symm.trans (lowers_eq this)) (by decide)), if_pos this]
    | failure h =>
      have := h4.mp h
      rw [if_neg (fun e => absurd ((lowers_eq e).symm.trans (lowers_eq this)) (by decide)),
        if_neg (fun e => absurd ((lowers_eq e).symm.trans (lowers_eq this)) (by decide)),
        if_neg (fun e => absurd ((lowers_eq e).symm.trans (lowers_eq this)) (by decide)), if_pos this]
    | unknown h =>
      have := h5.mp h
      rw [if_neg (fun e => absurd ((lowers_eq e).symm.trans (lowers_eq this)) (by decide)),
        if_neg (fun e => absurd ((lowers_eq e).symm.trans (lowers_eq this)) (by decide)),
        if_neg (fun e => absurd ((lowers_eq e).symm.trans (lowers_eq this)) (by decide)),
        if_neg (fun e => absurd ((lowers_eq e).symm.trans (lowers_eq this)) (by decide)), if_pos this]

theorem kind_iff (s : Str) (k : Kind) : Kind.parse s = k ↔ KindWord s k := by
  have h1 := reads_iff s "qos" (by decide)
  unfold Kind.parse
  constructor
  · rintro rfl
    split
    · next h => exact .qos (h1.mpr h)
    · next h => exact .other (fun e => h (h1.mp e))
  · intro h
    cases h with
    | qos h => rw [if_pos (h1.mp h)]
    | other h => rw [if_neg (fun e => h (h1.mpr e))]

theorem curr_iff (v : Str) (c : Curr) : Curr.parse v = some c ↔ CurrText v c := by
  unfold Curr.parse
  constructor
  · intro h
    split at h
    · next a b w e =>
      split at h
      · cases h
      · next s hs =>
        split at h
        · cases h
        · next x hx =>
          cases h
          exact ⟨a, b, w, (words_iff _ _).mpr e, (kind_iff _ _).mp rfl, (status_iff _ _).mp hs, (way_iff _ _).mp hx⟩
    · cases h
  · rintro ⟨a, b, w, e, hk, hs, hx⟩
    rw [(words_iff _ _).mp e]
    simp only
    rw [(status_iff _ _).mpr hs]
    simp only
    rw [(way_iff _ _).mpr hx, (kind_iff _ _).mpr hk]

theorem des_iff (v : Str) (d : Des) : Des.parse v = some d ↔ DesText v d := by
  unfold Des.parse
  constructor
  · intro h
    split at h
    · next a b c w e =>
      split at h
      · cases h
      · next g hg =>
        split at h
        · cases h
        · next s hs =>
          split at h
          · cases h
          · next x hx =>
            cases h
            exact ⟨a, b, c, w, (words_iff _ _).mpr e, (kind_iff _ _).mp rfl, (strength_iff _ _).mp hg, (status_iff _ _).mp hs,
              (way_iff _ _).mp hx⟩
    · cases h
  · rintro ⟨a, b, c, w, e, hk, hg, hs, hx⟩
    rw [(words_iff _ _).mp e]
    simp only
    rw [(strength_iff _ _).mpr hg]
    simp only
    rw [(status_iff _ _).mpr hs]
    simp only
    rw [(way_iff _ _).mpr hx, (kind_iff _ _).mpr hk]

theorem listed_iff {β : Type} (name : String) (R : Str → β → Prop) (f : Str → Option β) (hf : ∀ v x, f v = some x ↔ R v x)
    (as : List Attr) (xs : List β) :
    Listed name R as xs ↔ as.filterMap (fun a => if a.name = name.toList then a.value.bind f else none) = xs := by
  constructor
  · intro h
    induction h with
    | nil => rfl
    | @take a v x as xs hn hv hr _ ih =>
      rw [List.filterMap_cons]
      rw [if_pos hn, hv]
      simp only [Option.bind_some]
      rw [(hf v x).mpr hr]
      simp only
      rw [ih]
    | @skip a as xs h _ ih =>
      rw [List.filterMap_cons]
      have : (if a.name = name.toList then a.value.bind f else none) = none := by
        split
        · next hn =>
          cases hv : a.value with
          | none => rfl
          | some v =>
            simp only [Option.bind_some]
            cases hx : f v with
            | none => rfl
            | some x => exact absurd ((hf v x).mp hx) (h hn v hv x)
        · rfl
      rw [this]
      exact ih
  · rintro rfl
    induction as with
    | nil => exact .nil
    | cons a as ih =>
      rw [List.filterMap_cons]
      cases hx : (if a.name = name.toList then a.value.bind f else none) with
      | none =>
        refine .skip ?_ ih
        intro hn v hv x hr
        rw [if_pos hn, hv, Option.bind_some, (hf v x).mpr hr] at hx
        cases hx
      | some x =>
        split at hx
        · next hn =>
          cases hv : a.value with
          | none => rw [hv] at hx; cases hx
          | some v =>
            rw [hv] at hx
            exact .take hn hv ((hf v x).mp hx) ih
        · cases hx

theorem currs_iff (name : String) (as : List Attr) (cs : List Curr) : Listed name CurrText as cs ↔ currsOf name as = cs :=
  listed_iff name CurrText Curr.parse curr_iff as cs

theorem deses_iff (as : List Attr) (ds : List Des) : Listed "des" DesText as ds ↔ desOf as = ds :=
  listed_iff "des" DesText Des.parse des_iff as ds

/-! ### What is written is read back -/

/-- A kind that is written as one word, and is not `qos` in other letters. -/
def Spelled : Kind → Prop
  | .qos => True
  | .other s => s ≠ [] ∧ (∀ c ∈ s, isWs c = false) ∧ ¬ Reads s "qos"

theorem spelled_word (k : Kind) (h : Spelled k) : k.asStr ≠ [] ∧ (∀ c ∈ k.asStr, isWs c = false) ∧ KindWord k.asStr k := by
  cases k with
  | qos => exact ⟨by decide, by decide, (kind_iff _ _).mp (by decide)⟩
  | other s => exact ⟨h.1, h.2.1, .other h.2.2⟩

theorem words_one (w : Str) (h1 : w ≠ []) (h2 : ∀ c ∈ w, isWs c = false) : Words w [w] := by
  have := Words.cons (lead := []) (w := w) (rest := []) (by simp) h1 h2 (by simp) (.nil (by simp))
  simpa using this

theorem words_sp (w rest : Str) (ws : List Str) (h1 : w ≠ []) (h2 : ∀ c ∈ w, isWs c = false) (h : Words rest ws)  :
    Words (w ++ ' ' :: rest) (w :: ws) := by
  have h3 : Words (' ' :: rest) ws := by
    cases h with
    | nil h => exact .nil (by intro c hc; rcases List.mem_cons.mp hc with rfl | hc; decide; exact h c hc)
    | @cons lead w rest ws hl hw1 hw2 hr hws =>
      exact Words.cons (lead := ' ' :: lead) (by intro c hc; rcases List.mem_cons.mp hc with rfl | hc; decide; exact hl c hc) hw1 hw2 hr hws
  have := Words.cons (lead := []) (w := w) (rest := ' ' :: rest) (by simp) h1 h2 (by simp; decide) h3
  simpa using this

theorem status_show (s : Status) : s.asStr ≠ [] ∧ (∀ c ∈ s.asStr, isWs c = false) ∧ Status.parse s.asStr = some s := by
  cases s <;> exact ⟨by decide, by decide, by decide⟩

theorem way_show (s : Way) : s.asStr ≠ [] ∧ (∀ c ∈ s.asStr, isWs c = false) ∧ Way.parse s.asStr = some s := by
  cases s <;> exact ⟨by decide, by decide, by decide⟩

theorem strength_show (s : Strength) : s.asStr ≠ [] ∧ (∀ c ∈ s.asStr, isWs c = false) ∧ Strength.parse s.asStr = some s := by
  cases s <;> exact ⟨by decide, by decide, by decide⟩

theorem curr_show (c : Curr) (h : Spelled c.kind) : CurrText c.show c := by
  obtain ⟨k1, k2, k3⟩ := spelled_word c.kind h
  obtain ⟨s1, s2, s3⟩ := status_show c.status
  obtain ⟨w1, w2, w3⟩ := way_show c.way
  refine ⟨c.kind.asStr, c.status.asStr, c.way.asStr, ?_, k3, (status_iff _ _).mp s3, (way_iff _ _).mp w3⟩
  have := words_sp _ _ _ k1 k2 (words_sp _ _ _ s1 s2 (words_one _ w1 w2))
  unfold Curr.show
  simpa using this

theorem des_show (d : Des) (h : Spelled d.kind) : DesText d.show d := by
  obtain ⟨k1, k2, k3⟩ := spelled_word d.kind h
  obtain ⟨g1, g2, g3⟩ := strength_show d.strength
  obtain ⟨s1, s2, s3⟩ := status_show d.status
  obtain ⟨w1, w2, w3⟩ := way_show d.way
  refine ⟨d.kind.asStr, d.strength.asStr, d.status.asStr, d.way.asStr, ?_, k3, (strength_iff _ _).mp g3, (status_iff _ _).mp s3,
    (way_iff _ _).mp w3⟩
  have := words_sp _ _ _ k1 k2 (words_sp _ _ _ g1 g2 (words_sp _ _ _ s1 s2 (words_one _ w1 w2)))
  unfold Des.show
  simpa using this

/-! ### The answers -/

theorem turned (w : Way) : Turned w w.invert := by cases w <;> rfl
theorem opposite (s : Status) : Opposite s s.invert := by cases s <;> constructor

theorem answers_curr (o : Options) (cs : List Curr) :
    ∃ cs', (cs.filterMap (answerCurr o)).filterMap (fun a => if a.name = "curr".toList then a.value.bind Curr.parse else none) = cs' ∧
      Answers (·.kind) (CurrAnswer o) cs cs' := by
  induction cs with
  | nil => exact ⟨[], rfl, .nil⟩
  | cons c cs ih =>
    obtain ⟨cs', h1, h2⟩ := ih
    by_cases hk : c.kind = .qos
    · refine ⟨⟨c.kind, c.status.invert, currWay o c.status.invert c.way.invert⟩ :: cs', ?_, .take ?_ h2⟩
      · rw [List.filterMap_cons]
        have : answerCurr o c = some ⟨"curr".toList, some (Curr.show ⟨c.kind, c.status.invert, currWay o c.status.invert c.way.invert⟩)⟩ := by
          unfold answerCurr
          rw [if_neg (by simp [hk])]
        rw [this]
        simp only
        rw [List.filterMap_cons]
        simp only [if_true, Option.bind_some]
        rw [(curr_iff _ _).mpr (curr_show _ (by rw [hk]; trivial))]
        simp only
        rw [h1]
      · refine ⟨hk, hk, opposite _, ?_, ?_, ?_⟩
        all_goals
          simp only
          intro e
          rw [e]
        · exact turned _
        · unfold currWay
          cases o.qosLocal <;> simp
        · unfold currWay
          cases o.qosRemote <;> simp
    · refine ⟨cs', ?_, .skip hk h2⟩
      rw [List.filterMap_cons]
      have : answerCurr o c = none := by
        unfold answerCurr
        rw [if_pos hk]
      rw [this]
      exact h1

theorem answers_des (o : Options) (ds : List Des) :
    ∃ ds', (ds.filterMap (answerDes o)).filterMap (fun a => if a.name = "des".toList then a.value.bind Des.parse else none) = ds' ∧
      Answers (·.kind) (DesAnswer o) ds ds' := by
  induction ds with
  | nil => exact ⟨[], rfl, .nil⟩
  | cons d ds ih =>
    obtain ⟨ds', h1, h2⟩ := ih
    by_cases hk : d.kind = .qos
    · refine ⟨⟨d.kind, if o.upgrade && decide (d.strength = .optional) then .mandatory else d.strength, d.status.invert, d.way.invert⟩ :: ds',
        ?_, .take ?_ h2⟩
      · rw [List.filterMap_cons]
        have : answerDes o d = some ⟨"des".toList, some (Des.show
            ⟨d.kind, if o.upgrade && decide (d.strength = .optional) then .mandatory else d.strength, d.status.invert, d.way.invert⟩)⟩ := by
          unfold answerDes
          rw [if_neg (by simp [hk])]
        rw [this]
        simp only
        rw [List.filterMap_cons]
        simp only [if_true, Option.bind_some]
        rw [(des_iff _ _).mpr (des_show _ (by rw [hk]; trivial))]
        simp only
        rw [h1]
      · refine ⟨hk, hk, opposite _, turned _, ?_⟩
        simp only
        split
        · next h =>
          simp only [Bool.and_eq_true, decide_eq_true_eq] at h
          exact Or.inl ⟨h.1, h.2, rfl⟩
        · next h =>
          simp only [Bool.and_eq_true, decide_eq_true_eq] at h
          exact Or.inr ⟨h, rfl⟩
    · refine ⟨ds', ?_, .skip hk h2⟩
      rw [List.filterMap_cons]
      have : answerDes o d = none := by
        unfold answerDes
        rw [if_pos hk]
      rw [this]
      exact h1

theorem answers_conf (cs : List Curr) :
    ∃ cs', (cs.filterMap answerConf).filterMap (fun a => if a.name = "conf".toList then a.value.bind Curr.parse else none) = cs' ∧
      Answers (·.kind) ConfAnswer cs cs' := by
  induction cs with
  | nil => exact ⟨[], rfl, .nil⟩
  | cons c cs ih =>
    obtain ⟨cs', h1, h2⟩ := ih
    by_cases hk : c.kind = .qos
    · refine ⟨⟨c.kind, c.status.invert, c.way.invert⟩ :: cs', ?_, .take ⟨hk, hk, opposite _, turned _⟩ h2⟩
      rw [List.filterMap_cons]
      have : answerConf c = some ⟨"conf".toList, some (Curr.show ⟨c.kind, c.status.invert, c.way.invert⟩)⟩ := by
        unfold answerConf
        rw [if_neg (by simp [hk])]
      rw [this]
      simp only
      rw [List.filterMap_cons]
      simp only [if_true, Option.bind_some]
      rw [(curr_iff _ _).mpr (curr_show _ (by rw [hk]; trivial))]
      simp only
      rw [h1]
    · refine ⟨cs', ?_, .skip hk h2⟩
      rw [List.filterMap_cons]
      have : answerConf c = none := by
        unfold answerConf
        rw [if_pos hk]
      rw [this]
      exact h1

/-- Attributes with other names are not looked at. -/
theorem filterMap_other {β : Type} (name : String) (f : Str → Option β) (as : List Attr) (h : ∀ a ∈ as, a.name ≠ name.toList) :
    as.filterMap (fun a => if a.name = name.toList then a.value.bind f else none) = [] := by
  rw [List.filterMap_eq_nil_iff]
  intro a ha
  rw [if_neg (h a ha)]

theorem answerCurr_name (o : Options) (cs : List Curr) : ∀ a ∈ cs.filterMap (answerCurr o), a.name = "curr".toList := by
  intro a ha
  obtain ⟨c, _, h⟩ := List.mem_filterMap.mp ha
  unfold answerCurr at h
  split at h
  · cases h
  · cases h; rfl

theorem answerDes_name (o : Options) (cs : List Des) : ∀ a ∈ cs.filterMap (answerDes o), a.name = "des".toList := by
  intro a ha
  obtain ⟨c, _, h⟩ := List.mem_filterMap.mp ha
  unfold answerDes at h
  split at h
  · cases h
  · cases h; rfl

theorem answerConf_name (cs : List Curr) : ∀ a ∈ cs.filterMap answerConf, a.name = "conf".toList := by
  intro a ha
  obtain ⟨c, _, h⟩ := List.mem_filterMap.mp ha
  unfold answerConf at h
  split at h
  · cases h
  · cases h; rfl

theorem preconditions_name (o : Options) (as : List Attr) :
    ∀ a ∈ answerPreconditions o as, a.name = "curr".toList ∨ a.name = "des".toList ∨ a.name = "conf".toList := by
  intro a ha
  unfold answerPreconditions at ha
  rcases List.mem_append.mp ha with ha | ha
  · rcases List.mem_append.mp ha with ha | ha
    · exact Or.inl (answerCurr_name _ _ a ha)
    · exact Or.inr (Or.inl (answerDes_name _ _ a ha))
  · exact Or.inr (Or.inr (answerConf_name _ a ha))

theorem currsOf_append (n : String) (as bs : List Attr) : currsOf n (as ++ bs) = currsOf n as ++ currsOf n bs := by
  unfold currsOf
  rw [List.filterMap_append]

theorem desOf_append (as bs : List Attr) : desOf (as ++ bs) = desOf as ++ desOf bs := by
  unfold desOf
  rw [List.filterMap_append]

end Siphon.Offer
