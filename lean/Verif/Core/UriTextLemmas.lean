import Verif.Core.UriText
import Verif.Core.UriProps
import Verif.Core.Ipv6Props
import Verif.Base.Strip
import Verif.Base.TextLemmas
import Verif.Base.PercentLemmas
/-!
# Lemmas: reading a URI text
-/
namespace Siphon.UriText
open Siphon.TextSpec Siphon.HdrSpec Siphon.UriP

/-! ## Percent signs -/

theorem hexByte_iff (b : UInt8) (x : Nat) : hexByte b = some x ↔ HexVal b x := by
  unfold hexByte HexVal
  simp only
  repeat' split
  all_goals first
    | (simp only [Option.some.injEq]; omega)
    | (simp only [reduceCtorEq, false_iff]; omega)

theorem unescaped_iff : ∀ (f : Nat) (bs r : Bytes), bs.length ≤ f → (Unescaped bs r ↔ percentGo f bs = r) := by
  intro f
  induction f with
  | zero =>
    intro bs r h
    obtain rfl : bs = [] := List.length_eq_zero_iff.mp (by omega)
    constructor
    · intro h; cases h; rfl
    · intro h
      have : r = [] := by simpa [percentGo] using h.symm
      subst this; exact .nil
  | succ f ih =>
    intro bs r h
    cases bs with
    | nil =>
      constructor
      · intro h; cases h; rfl
      · intro h
        have : r = [] := by simpa [percentGo] using h.symm
        subst this; exact .nil
    | cons a t =>
      simp only [List.length_cons] at h
      by_cases he : ∃ b c t' x y, a :: t = 37 :: b :: c :: t' ∧ HexVal b x ∧ HexVal c y
      · obtain ⟨b, c, t', x, y, e, hx, hy⟩ := he
        cases e
        simp only [List.length_cons] at h
        have hgo : percentGo (f + 1) (37 :: b :: c :: t') = UInt8.ofNat (x * 16 + y) :: percentGo f t' := by
          rw [percentGo]
          rw [if_pos (by decide)]
          simp only [(hexByte_iff b x).mpr hx, (hexByte_iff c y).mpr hy]
        rw [hgo]
        constructor
        · intro hu
          cases hu with
          | @esc _ _ _ r' x' y' h1 h2 h3 =>
            have e1 : x = x' := by
              have := ((hexByte_iff b x).mpr hx).symm.trans ((hexByte_iff b x').mpr h1)
              simpa using this
            have e2 : y = y' := by
              have := ((hexByte_iff c y).mpr hy).symm.trans ((hexByte_iff c y').mpr h2)
              simpa using this
            subst e1 e2
            rw [(ih t' r' (by omega)).mp h3]
          | keep h1 _ => exact absurd hy (h1 b c t' x y rfl hx)
        · intro e
          subst e
          exact .esc hx hy ((ih t' _ (by omega)).mpr rfl)
      · have hgo : percentGo (f + 1) (a :: t) = a :: percentGo f t := by
          by_cases ha : a.toNat = 37
          · have ha' : a = 37 := UInt8.toNat_inj.mp ha
            subst ha'
            match t with
            | [] => simp [percentGo]
            | [b] => simp [percentGo]
            | b :: c :: t' =>
              rw [percentGo, if_pos ha]
              split
              · rename_i x y h1 h2
                exact absurd ⟨b, c, t', x, y, rfl, (hexByte_iff b x).mp h1, (hexByte_iff c y).mp h2⟩ he
              · rfl
          · match t with
            | [] => simp [percentGo, ha]
            | [b] => simp [percentGo, ha]
            | b :: c :: t' => rw [percentGo, if_neg ha]
        rw [hgo]
        constructor
        · intro hu
          cases hu with
          | esc h1 h2 h3 => exact absurd ⟨_, _, _, _, _, rfl, h1, h2⟩ he
          | keep _ h2 => rw [(ih t _ (by omega)).mp h2]
        · intro e
          subst e
          exact .keep (fun b c t' x y e hx hy => he ⟨b, c, t', x, y, e, hx, hy⟩) ((ih t _ (by omega)).mpr rfl)

theorem ascii_encode : ∀ n : Fin 128, String.utf8EncodeChar (Char.ofNat n.val) = [UInt8.ofNat n.val] := by decide +kernel

theorem accept_some {n : Nat} {bs : Bytes} {c : Char} (h : acceptChar n bs = some c) : String.utf8EncodeChar c = bs := by
  unfold acceptChar at h
  split at h
  · rename_i hc; cases h; exact hc.2
  · cases h

theorem takeChar_some {bs rest : Bytes} {c : Char} (h : takeChar bs = some (c, rest)) : bs = String.utf8EncodeChar c ++ rest := by
  cases bs with
  | nil => cases h
  | cons a t =>
    unfold takeChar at h
    simp only at h
    split at h
    · rename_i ha
      simp only [Option.some.injEq, Prod.mk.injEq] at h
      obtain ⟨rfl, rfl⟩ := h
      rw [ascii_encode ⟨a.toNat, ha⟩]
      simp
    · split at h
      · split at h
        · simp only [Option.map_eq_some_iff, Prod.mk.injEq] at h
          obtain ⟨x, hx, rfl, rfl⟩ := h
          rw [accept_some hx]; rfl
        · cases h
      · split at h
        · split at h
          · simp only [Option.map_eq_some_iff, Prod.mk.injEq] at h
            obtain ⟨x, hx, rfl, rfl⟩ := h
            rw [accept_some hx]; rfl
          · cases h
        · split at h
          · simp only [Option.map_eq_some_iff, Prod.mk.injEq] at h
            obtain ⟨x, hx, rfl, rfl⟩ := h
            rw [accept_some hx]; rfl
          · cases h

theorem decodeGo_some : ∀ (f : Nat) (bs : Bytes) (t : Str), utf8DecodeGo f bs = some t → utf8 t = bs
  | 0, [], t, h => by simp only [utf8DecodeGo, Option.some.injEq] at h; subst h; rfl
  | _ + 1, [], t, h => by simp only [utf8DecodeGo, Option.some.injEq] at h; subst h; rfl
  | 0, _ :: _, t, h => by cases h
  | f + 1, a :: bs, t, h => by
    unfold utf8DecodeGo at h
    split at h
    · rename_i c rest hc
      simp only [Option.map_eq_some_iff] at h
      obtain ⟨r, hr, rfl⟩ := h
      rw [takeChar_some hc, ← decodeGo_some f rest r hr]
      simp [utf8]
    · cases h

theorem utf8Decode_iff (bs : Bytes) (t : Str) : utf8Decode bs = some t ↔ utf8 t = bs :=
  ⟨decodeGo_some _ _ _, fun h => by rw [← h]; exact utf8Decode_utf8 t⟩

theorem unescapes_iff (s t : Str) : Unescapes s t ↔ percentDecode s = some t := by
  unfold Unescapes percentDecode
  simp only
  rw [utf8Decode_iff, unescaped_iff _ _ _ (Nat.le_refl _)]
  exact ⟨fun h => h.symm, fun h => h.symm⟩

/-! ## Tables -/

theorem strLt_iff : ∀ a b : Str, strLt a b = true ↔ a < b
  | [], [] => by simp [strLt]
  | [], _ :: _ => by simp [strLt]
  | _ :: _, [] => by simp [strLt]
  | a :: s, b :: t => by
    unfold strLt
    rw [List.cons_lt_cons_iff, ← strLt_iff s t]
    have h1 : a < b ↔ a.toNat < b.toNat := by simp [Char.lt_def, UInt32.lt_iff_toNat_lt]
    rw [h1, char_eq_iff]
    repeat' split
    · simp_all
    · simp; omega
    · constructor
      · intro h; exact Or.inr ⟨by omega, h⟩
      · rintro (h | ⟨_, h⟩)
        · omega
        · exact h

theorem sorted_iff {V : Type} (m : BMap V) : Sorted m ↔ m.Pairwise (fun a b => a.1 < b.1) := by
  unfold Sorted
  simp only [strLt_iff]

theorem holds_nil {V : Type} : Holds ([] : List (Str × V)) [] :=
  ⟨.nil, fun k y => by simp⟩

theorem sorted_ext {V : Type} : ∀ {m m' : BMap V}, Sorted m → Sorted m' → (∀ e, e ∈ m ↔ e ∈ m') → m = m'
  | [], [], _, _, _ => rfl
  | [], e :: t, _, _, h => by have := (h e).mpr (by simp); cases this
  | e :: t, [], _, _, h => by have := (h e).mp (by simp); cases this
  | e :: t, e' :: t', h1, h2, h => by
    have a1 := (List.pairwise_cons.mp h1)
    have a2 := (List.pairwise_cons.mp h2)
    have he : e = e' := by
      rcases List.mem_cons.mp ((h e).mp (by simp)) with rfl | hm
      · rfl
      · rcases List.mem_cons.mp ((h e').mpr (by simp)) with h3 | hm'
        · exact h3.symm
        · have := strLt_trans _ _ _ (a2.1 e hm) (a1.1 e' hm')
          rw [strLt_irrefl] at this; cases this
    subst he
    have : t = t' := sorted_ext a1.2 a2.2 (by
      intro x
      have hx := h x
      simp only [List.mem_cons] at hx
      constructor
      · intro hm
        rcases hx.mp (Or.inr hm) with rfl | h3
        · have := a1.1 x hm; rw [strLt_irrefl] at this; cases this
        · exact h3
      · intro hm
        rcases hx.mpr (Or.inr hm) with rfl | h3
        · have := a2.1 x hm; rw [strLt_irrefl] at this; cases this
        · exact h3)
    rw [this]

theorem holds_fun {V : Type} {es m m' : List (Str × V)} (h : Holds es m) (h' : Holds es m') : m = m' :=
  sorted_ext ((sorted_iff m).mpr h.1) ((sorted_iff m').mpr h'.1) (fun e => by
    obtain ⟨k, y⟩ := e
    rw [h.2, h'.2])

theorem holds_insert {V : Type} {es m : List (Str × V)} (h : Holds es m) (k : Str) (v : V) :
    Holds (es ++ [(k, v)]) (BMap.insert m k v) := by
  have hs : Sorted m := (sorted_iff m).mpr h.1
  refine ⟨(sorted_iff _).mp (sorted_insert k v hs), ?_⟩
  intro x y
  rw [mem_insert_iff hs, h.2]
  constructor
  · rintro (⟨rfl, rfl⟩ | ⟨hne, a, b, rfl, hb⟩)
    · exact ⟨es, [], rfl, by simp⟩
    · refine ⟨a, b ++ [(k, v)], by simp, ?_⟩
      intro e he
      rcases List.mem_append.mp he with he | he
      · exact hb e he
      · simp only [List.mem_singleton] at he
        subst he
        exact fun e => hne e.symm
  · rintro ⟨a, b, e, hb⟩
    rcases List.eq_nil_or_concat b with rfl | ⟨b', z, rfl⟩
    · have := List.append_inj' e (by rfl)
      simp only [List.cons.injEq, Prod.mk.injEq, and_true] at this
      exact Or.inl ⟨this.2.1.symm, this.2.2.symm⟩
    · have e' : es ++ [(k, v)] = (a ++ (x, y) :: b') ++ [z] := by rw [e]; simp
      have := List.append_inj' e' (by rfl)
      simp only [List.cons.injEq, and_true] at this
      obtain ⟨h1, rfl⟩ := this
      refine Or.inr ⟨fun hk => hb (k, v) (by simp) hk.symm, a, b', h1, fun e he => hb e (by simp [he])⟩

section
variable {V : Type} {P : Str → Option (Str × V) → Prop}

theorem collects_append {qs ps : List Str} {es : List (Str × V)} :
    Collects P (qs ++ ps) es ↔ ∃ a b, es = a ++ b ∧ Collects P qs a ∧ Collects P ps b := by
  induction qs generalizing es with
  | nil =>
    constructor
    · intro h; exact ⟨[], es, rfl, .nil, h⟩
    · rintro ⟨a, b, rfl, h1, h2⟩
      cases h1; exact h2
  | cons q qs ih =>
    constructor
    · intro h
      cases h with
      | skip h1 h2 =>
        obtain ⟨a, b, rfl, h3, h4⟩ := ih.mp h2
        exact ⟨a, b, rfl, .skip h1 h3, h4⟩
      | @take _ e _ _ h1 h2 =>
        obtain ⟨a, b, rfl, h3, h4⟩ := ih.mp h2
        exact ⟨e :: a, b, rfl, .take h1 h3, h4⟩
    · rintro ⟨a, b, rfl, h1, h2⟩
      cases h1 with
      | skip h3 h4 => exact .skip h3 (ih.mpr ⟨_, _, rfl, h4, h2⟩)
      | take h3 h4 => exact .take h3 (ih.mpr ⟨_, _, rfl, h4, h2⟩)

/-- Reading a list of pieces into a table. -/
def collect (step : Str → Option (Option (Str × V))) (max : Nat) : List Str → BMap V → Option (BMap V)
  | [], acc => some acc
  | p :: ps, acc =>
    if acc.length ≥ max then none
    else
      match step p with
      | none => none
      | some none => collect step max ps acc
      | some (some e) => collect step max ps (acc.insert e.1 e.2)

variable {step : Str → Option (Option (Str × V))}

theorem collects_fun (hs : ∀ p o, P p o ↔ step p = some o) : ∀ {ps : List Str} {es es' : List (Str × V)}, Collects P ps es →
    Collects P ps es' → es = es'
  | [], _, _, h, h' => by cases h; cases h'; rfl
  | p :: ps, _, _, h, h' => by
    cases h with
    | skip h1 h2 =>
      cases h' with
      | skip h3 h4 => exact collects_fun hs h2 h4
      | take h3 h4 =>
        have := ((hs _ _).mp h1).symm.trans ((hs _ _).mp h3)
        cases this
    | take h1 h2 =>
      cases h' with
      | skip h3 h4 =>
        have := ((hs _ _).mp h1).symm.trans ((hs _ _).mp h3)
        cases this
      | take h3 h4 =>
        have := ((hs _ _).mp h1).symm.trans ((hs _ _).mp h3)
        cases this
        rw [collects_fun hs h2 h4]

theorem table_fun (hs : ∀ p o, P p o ↔ step p = some o) {max : Nat} {ps : List Str} {m m' : List (Str × V)} (h : Table P max ps m)
    (h' : Table P max ps m') : m = m' := by
  obtain ⟨es, h1, h2, _⟩ := h
  obtain ⟨es', h1', h2', _⟩ := h'
  obtain rfl := collects_fun hs h1 h1'
  exact holds_fun h2 h2'

theorem table_snoc {max : Nat} {qs : List Str} {p : Str} {acc acc' : List (Str × V)} {es es' : List (Str × V)} (h : Collects P qs es)
    (ha : Holds es acc) (hlt : acc.length < max)
    (hp : ∀ qs' r rs, qs = qs' ++ r :: rs → ∃ es' m', Collects P qs' es' ∧ Holds es' m' ∧ m'.length < max)
    (h' : Collects P (qs ++ [p]) es') (ha' : Holds es' acc') : Table P max (qs ++ [p]) acc' := by
  refine ⟨es', h', ha', ?_⟩
  intro qs' r rs e
  rcases List.eq_nil_or_concat rs with rfl | ⟨rs', z, rfl⟩
  · have := List.append_inj' e (by rfl)
    rw [← this.1]
    exact ⟨es, acc, h, ha, hlt⟩
  · have e' : qs ++ [p] = (qs' ++ r :: rs') ++ [z] := by rw [e]; simp
    have := List.append_inj' e' (by rfl)
    exact hp qs' r rs' this.1

theorem table_iff (hs : ∀ p o, P p o ↔ step p = some o) (max : Nat) : ∀ (ps qs : List Str) (acc m : BMap V), Table P max qs acc →
    (collect step max ps acc = some m ↔ Table P max (qs ++ ps) m)
  | [], qs, acc, m, h => by
    rw [List.append_nil]
    constructor
    · intro e; cases e; exact h
    · intro h'; rw [table_fun hs h h']; rfl
  | p :: ps, qs, acc, m, h => by
    unfold collect
    split
    · rename_i hlen
      constructor
      · intro e; cases e
      · rintro ⟨es, _, _, h3⟩
        obtain ⟨es', m', h4, h5, h6⟩ := h3 qs p ps rfl
        obtain ⟨es'', h7, h8, _⟩ := h
        obtain rfl := collects_fun hs h4 h7
        rw [holds_fun h5 h8] at h6
        omega
    · rename_i hlen
      obtain ⟨es, g1, g2, g3⟩ := h
      have key : ∀ o, step p = some o → ∀ acc', (match o with | none => acc' = acc | some e => acc' = BMap.insert acc e.1 e.2) →
          Table P max (qs ++ [p]) acc' := by
        intro o ho acc' he
        cases o with
        | none =>
          subst he
          exact table_snoc g1 g2 (by omega) g3 (collects_append.mpr ⟨es, [], by simp, g1, .skip ((hs _ _).mpr ho) .nil⟩) g2
        | some e =>
          subst he
          exact table_snoc g1 g2 (by omega) g3 (collects_append.mpr ⟨es, [e], rfl, g1, .take ((hs _ _).mpr ho) .nil⟩)
            (holds_insert g2 e.1 e.2)
      have happ : qs ++ p :: ps = (qs ++ [p]) ++ ps := by simp
      split
      · rename_i hn
        constructor
        · intro e; cases e
        · rintro ⟨es', h1, _, _⟩
          obtain ⟨a, b, _, _, h2⟩ := collects_append.mp h1
          cases h2 with
          | skip h3 _ => have := (hs _ _).mp h3; rw [hn] at this; cases this
          | take h3 _ => have := (hs _ _).mp h3; rw [hn] at this; cases this
      · rename_i hn
        rw [happ]
        exact table_iff hs max ps _ acc m (key none hn acc rfl)
      · rename_i e hn
        rw [happ]
        exact table_iff hs max ps _ _ m (key (some e) hn _ rfl)

theorem table_start {max : Nat} : Table P max [] ([] : List (Str × V)) :=
  ⟨[], .nil, holds_nil, fun qs r rs e => by simp at e⟩

end
end Siphon.UriText
