import Verif.Prefs.Spec
import Verif.Base.Strip
import Verif.Base.TextLemmas
import Verif.Base.CharLemmas
import Verif.Core.UriTextLemmas
import Verif.Core.HeadersProps
import Verif.Core.UriProps
set_option linter.unusedSimpArgs false
/-!
# Lemmas about capabilities
-/
namespace Siphon.Prefs
open TextSpec HdrSpec Spec

theorem goodToken_iff (t : Str) : goodToken t = true ↔ GoodToken t := by
  unfold goodToken validToken GoodToken MAX_TOKEN_LENGTH
  simp only [Bool.and_eq_true, decide_eq_true_eq, Bool.not_eq_true', List.isEmpty_eq_false_iff, List.all_eq_true, Bool.or_eq_true,
    List.contains_iff_mem]
  constructor
  · rintro ⟨h1, h2, h3⟩; exact ⟨h2, h1, h3⟩
  · rintro ⟨h2, h1, h3⟩; exact ⟨h1, h2, h3⟩

theorem valid_iff (v : Value) : v.valid = true ↔ Allowed v := by
  cases v with
  | boolean b => exact ⟨fun _ => .boolean b, fun _ => rfl⟩
  | numeric n => exact ⟨fun _ => .numeric n, fun _ => rfl⟩
  | token t =>
    rw [Value.valid, goodToken_iff]
    exact ⟨fun h => .token h, fun h => by cases h; assumption⟩
  | list l =>
    unfold Value.valid MAX_TOKEN_LIST_SIZE
    simp only [Bool.and_eq_true, decide_eq_true_eq, List.all_eq_true, goodToken_iff]
    exact ⟨fun h => .list h.1 h.2, fun h => by cases h; exact ⟨by assumption, by assumption⟩⟩
  | string s =>
    unfold Value.valid validString MAX_STRING_LENGTH
    simp only [Bool.and_eq_true, decide_eq_true_eq, Bool.not_eq_true', List.any_eq_false,
      Bool.or_eq_true, beq_iff_eq, not_or, Bool.not_eq_true]
    constructor
    · rintro ⟨h1, h2⟩
      exact .string h1 (fun c hc => (h2 c hc).1) (fun h => (h2 _ h).2 rfl)
    · intro h
      cases h with
      | string h1 h2 h3 => exact ⟨h1, fun c hc => ⟨h2 c hc, fun e => h3 (e ▸ hc)⟩⟩

theorem isList_iff (t : Tag) : t.isList = true ↔ ListTag t := by
  unfold ListTag
  cases t <;> decide

theorem all_mem (t : Tag) : t ∈ Tag.all := by cases t <;> decide

theorem all_nodup : Tag.all.Nodup := by decide

theorem mem_entries (f : Feats) (t : Tag) (v : Value) : (t, v) ∈ f.entries ↔ f t = some v := by
  unfold Feats.entries
  simp only [List.mem_filterMap, Option.map_eq_some_iff, Prod.mk.injEq]
  constructor
  · rintro ⟨a, _, w, hw, rfl, rfl⟩; exact hw
  · intro h; exact ⟨t, all_mem t, v, h, rfl, rfl⟩

theorem names_iff (n : Str) (t : Tag) : Names n t ↔ Tag.ofParam n = some t := by
  have key : ∀ l : Str, ((paramTable.find? (fun e => e.1 == l)).map (·.2) = some t ↔ l = t.param) := by
    intro l
    constructor
    · intro h
      simp only [Option.map_eq_some_iff] at h
      obtain ⟨⟨k, t'⟩, h1, rfl⟩ := h
      have h2 := List.find?_some h1
      have h3 := List.mem_of_find?_eq_some h1
      simp only [beq_iff_eq] at h2
      subst h2
      have : ∀ e ∈ paramTable, e.1 = e.2.param := by decide
      exact this _ h3
    · rintro rfl
      cases t <;> decide
  unfold Tag.ofParam
  rw [key]
  unfold Names
  simp only [sameName_iff, eqIgnoreCase, beq_iff_eq]
  constructor
  · rintro ⟨m, hm, h⟩
    rw [h]
    clear h
    simp only [List.mem_cons, List.not_mem_nil, or_false, Prod.mk.injEq] at hm
    rcases hm with ⟨rfl, rfl⟩ | ⟨rfl, rfl⟩ | ⟨rfl, rfl⟩ | ⟨rfl, rfl⟩ | ⟨rfl, rfl⟩ | ⟨rfl, rfl⟩ | ⟨rfl, rfl⟩ | ⟨rfl, rfl⟩ | ⟨rfl, rfl⟩ |
      ⟨rfl, rfl⟩ | ⟨rfl, rfl⟩ | ⟨rfl, rfl⟩ | ⟨rfl, rfl⟩ | ⟨rfl, rfl⟩ | ⟨rfl, rfl⟩ | ⟨rfl, rfl⟩ | ⟨rfl, rfl⟩ | ⟨rfl, rfl⟩ | ⟨rfl, rfl⟩ <;> decide
  · intro h
    refine ⟨String.ofList t.param, ?_, ?_⟩
    · cases t <;> decide
    · rw [h, String.toList_ofList]
      cases t <;> decide

theorem stripped_iff : ∀ (ps ts : List Str), Stripped ps ts ↔ ts = ps.map trim
  | [], ts => by
    constructor
    · intro h; cases h; rfl
    · rintro rfl; exact .nil
  | p :: ps, ts => by
    constructor
    · intro h
      cases h with
      | cons h1 h2 => rw [(stripped_iff ps _).mp h2, (strips_trim _ _).mp h1]; rfl
    · rintro rfl
      exact .cons ((strips_trim _ _).mpr rfl) ((stripped_iff ps _).mpr rfl)

/-! ## Quotes -/

theorem inner_quoted (y : Str) : inner ('"' :: y ++ ['"']) = y := by simp [inner]

theorem ends_quoted (y : Str) : (('"' :: y ++ ['"']).head? == some '"' && ('"' :: y ++ ['"']).getLast? == some '"') = true := by
  simp only [List.cons_append, List.head?_cons, List.getLast?_cons, List.getLast?_append, List.getLast?_singleton]
  simp

theorem quoted_iff (x : Str) : quoted x = true ↔ ∃ y, x = '"' :: y ++ ['"'] := by
  constructor
  · intro h
    simp only [quoted, Bool.and_eq_true, beq_iff_eq, decide_eq_true_eq] at h
    obtain ⟨⟨h1, h2⟩, h3⟩ := h
    cases x with
    | nil => cases h1
    | cons c x =>
      simp only [List.head?_cons, Option.some.injEq] at h1
      subst h1
      rcases List.eq_nil_or_concat x with rfl | ⟨y, d, rfl⟩
      · simp at h3
      · rw [List.concat_eq_append] at h2 ⊢
        simp only [List.getLast?_cons, List.getLast?_append, List.getLast?_singleton, Option.some_or, Option.getD_some, Option.some.injEq] at h2
        subst h2
        exact ⟨y, rfl⟩
  · rintro ⟨y, rfl⟩
    have := ends_quoted y
    simp only [quoted, Bool.and_eq_true] at this ⊢
    exact ⟨this, by simp⟩

theorem ends_iff (x : Str) (h : (x.contains '"' && !quoted x) = false) :
    (x.head? == some '"' && x.getLast? == some '"') = true ↔ ∃ y, x = '"' :: y ++ ['"'] := by
  constructor
  · intro he
    refine (quoted_iff x).mp ?_
    have hc : x.contains '"' = true := by
      simp only [Bool.and_eq_true, beq_iff_eq] at he
      rw [List.contains_iff_mem]
      exact List.mem_of_mem_head? (by rw [he.1]; rfl)
    rw [hc] at h
    simpa using h
  · rintro ⟨y, rfl⟩; exact ends_quoted y

theorem goodToken_no {x : Str} (h : GoodToken x) (c : Char) (hc : isAlnum c = false) (hm : c ∉ "-.!%*_+`'~".toList) : c ∉ x := by
  intro hx
  rcases h.2.2 c hx with h1 | h1
  · rw [hc] at h1; cases h1
  · exact hm h1

theorem goodToken_trimmed {x : Str} (h : GoodToken x) : Trimmed x := by
  apply trimmed_of_all
  intro c hc
  have : isWs c = true → isAlnum c = false ∧ c ∉ "-.!%*_+`'~".toList := by
    intro hw
    have ascii : ∀ d : Char, isAlnum d = true ∨ d ∈ "-.!%*_+`'~".toList → isWs d = false := by
      intro d hd
      rcases hd with hd | hd
      · rw [isAlnum_iff] at hd
        unfold isWs
        simp only [Bool.or_eq_false_iff, Bool.and_eq_false_iff, decide_eq_false_iff_not, beq_eq_false_iff_ne]
        omega
      · revert hd; revert d; decide
    refine ⟨?_, fun hm => ?_⟩
    · cases ha : isAlnum c with
      | false => rfl
      | true => rw [ascii c (Or.inl ha)] at hw; cases hw
    · rw [ascii c (Or.inr hm)] at hw; cases hw
  cases hw : isWs c with
  | false => rfl
  | true =>
    obtain ⟨h1, h2⟩ := this hw
    exact absurd hc (goodToken_no h c h1 h2)

/-! ## Reading a value -/

theorem parseList_iff (x : Str) (hx : Trimmed x) (l : List Str) (h : (x.contains '"' && !quoted x) = false) :
    parseList x = some l ↔ ∃ y ps ts, (x = '"' :: y ++ ['"'] ∨ x = y ∧ '"' ∉ x) ∧ Pieces ',' y ps ∧ Stripped ps ts ∧
      (ts.filter (· ≠ [])).length ≤ 20 ∧ (∀ w ∈ ts, w ≠ [] → GoodToken w) ∧ l = ts.filter (· ≠ []) := by
  unfold parseList
  simp only [trim_of_trimmed x hx]
  have body : ∀ y, (if (((splitChar ',' y).map trim).filter (fun t => !t.isEmpty)).length > MAX_TOKEN_LIST_SIZE then (none : Option (List Str))
      else if (((splitChar ',' y).map trim).filter (fun t => !t.isEmpty)).all goodToken then
        some (((splitChar ',' y).map trim).filter (fun t => !t.isEmpty)) else none) = some l ↔
      ∃ ps ts, Pieces ',' y ps ∧ Stripped ps ts ∧ (ts.filter (· ≠ [])).length ≤ 20 ∧ (∀ w ∈ ts, w ≠ [] → GoodToken w) ∧ l = ts.filter (· ≠ []) := by
    intro y
    have ef : ∀ ts : List Str, ts.filter (fun t => !t.isEmpty) = ts.filter (· ≠ []) := by
      intro ts
      congr 1
      funext t
      cases t <;> rfl
    rw [ef]
    constructor
    · intro h1
      split at h1
      · cases h1
      · rename_i hlen
        split at h1
        · rename_i hall
          simp only [Option.some.injEq] at h1
          refine ⟨_, _, (pieces_iff _ _ _).mpr rfl, (stripped_iff _ _).mpr rfl, by unfold MAX_TOKEN_LIST_SIZE at hlen; omega, ?_, h1.symm⟩
          intro w hw hne
          rw [← goodToken_iff]
          exact (List.all_eq_true.mp hall) w (List.mem_filter.mpr ⟨hw, by simpa using hne⟩)
        · cases h1
    · rintro ⟨ps, ts, h1, h2, h3, h4, rfl⟩
      rw [pieces_iff] at h1
      subst h1
      rw [stripped_iff] at h2
      subst h2
      rw [if_neg (by unfold MAX_TOKEN_LIST_SIZE; omega), if_pos]
      rw [List.all_eq_true]
      intro w hw
      rw [goodToken_iff]
      have := List.mem_filter.mp hw
      exact h4 w this.1 (by simpa using this.2)
  by_cases he : (x.head? == some '"' && x.getLast? == some '"') = true
  · obtain ⟨y, rfl⟩ := (ends_iff x h).mp he
    rw [if_pos he, inner_quoted, body]
    constructor
    · rintro ⟨ps, ts, hh⟩; exact ⟨y, ps, ts, Or.inl rfl, hh⟩
    · rintro ⟨y', ps, ts, hy | hy, hh⟩
      · have : y' = y := by simpa using hy.symm
        subst this; exact ⟨ps, ts, hh⟩
      · exact absurd (by simp) hy.2
  · rw [if_neg he, body]
    have hno : ¬ ∃ y, x = '"' :: y ++ ['"'] := fun hh => he ((ends_iff x h).mpr hh)
    have hq : '"' ∉ x := by
      intro hm
      rw [List.contains_iff_mem.mpr hm] at h
      simp only [Bool.true_and, Bool.not_eq_false'] at h
      exact hno ((quoted_iff x).mp h)
    constructor
    · rintro ⟨ps, ts, hh⟩; exact ⟨x, ps, ts, Or.inr ⟨rfl, hq⟩, hh⟩
    · rintro ⟨y', ps, ts, hy | hy, hh⟩
      · exact absurd ⟨y', hy⟩ hno
      · obtain ⟨rfl, _⟩ := hy; exact ⟨ps, ts, hh⟩

theorem checked_iff (v w : Value) : checked v = some w ↔ Allowed v ∧ w = v := by
  unfold checked
  rw [← valid_iff]
  split
  · rename_i h
    simp only [Option.some.injEq]
    exact ⟨fun e => ⟨h, e.symm⟩, fun e => e.2.symm⟩
  · rename_i h
    exact ⟨fun e => by simp at e, fun e => absurd e.1 h⟩

theorem filtered_good {ts : List Str} (h : ∀ w ∈ ts, w ≠ [] → GoodToken w) : ∀ t ∈ ts.filter (· ≠ []), GoodToken t := by
  intro t ht
  have := List.mem_filter.mp ht
  exact h t this.1 (by simpa using this.2)

theorem reads_iff (F : Floats) (t : Tag) (o : Option Str) (v : Value) : Reads F t o v ↔ Value.ofParam F t o = some v := by
  cases o with
  | none =>
    constructor
    · intro h; cases h; rfl
    · intro h
      simp only [Value.ofParam, Option.some.injEq] at h
      subst h
      exact .flag
  | some s =>
    simp only [Value.ofParam]
    have htr : Trimmed (trim s) := UriP.trimmed_trim s
    by_cases hq : ((trim s).contains '"' && !quoted (trim s)) = true
    · rw [if_pos hq]
      simp only [Bool.and_eq_true, Bool.not_eq_true', List.contains_iff_mem] at hq
      obtain ⟨hm, hn⟩ := hq
      have hno : ¬ ∃ y, trim s = '"' :: y ++ ['"'] := by
        intro hh
        rw [(quoted_iff _).mpr hh] at hn
        cases hn
      constructor
      · intro h
        exfalso
        cases h with
        | list ht hs hx _ _ _ _ =>
          rw [(strips_trim _ _).mp hs] at hx
          rcases hx with hx | hx
          · exact hno ⟨_, hx⟩
          · exact hx.2 hm
        | string ht hs _ _ _ => exact hno ⟨_, ((strips_trim _ _).mp hs).symm⟩
        | numeric ht hs hx _ => rw [(strips_trim _ _).mp hs] at hx; exact hx hm
        | token ht hs _ hg =>
          rw [(strips_trim _ _).mp hs] at hg
          exact goodToken_no hg '"' (by decide) (by decide) hm
      · intro h; cases h
    · rw [if_neg hq]
      have hq' : ((trim s).contains '"' && !quoted (trim s)) = false := by simpa using hq
      by_cases hl : t.isList = true
      · rw [if_pos hl]
        have hL := (isList_iff t).mp hl
        rw [Option.bind_eq_some_iff]
        constructor
        · intro h
          cases h with
          | list ht hs hx hp h2 hn hg =>
            rw [(strips_trim _ _).mp hs] at hx
            refine ⟨_, (parseList_iff _ htr _ hq').mpr ⟨_, _, _, hx, hp, h2, hn, hg, rfl⟩, ?_⟩
            rw [checked_iff]
            exact ⟨.list hn (filtered_good hg), rfl⟩
          | string ht => exact absurd hL ht
          | numeric ht => exact absurd hL ht
          | token ht => exact absurd hL ht
        · rintro ⟨l, h1, h2⟩
          obtain ⟨y, ps, ts, hx, hp, h3, hn, hg, rfl⟩ := (parseList_iff _ htr _ hq').mp h1
          obtain ⟨_, rfl⟩ := (checked_iff _ _).mp h2
          exact .list hL ((strips_trim _ _).mpr rfl) hx hp h3 hn hg
      · rw [if_neg hl]
        have hL : ¬ ListTag t := fun h => hl ((isList_iff t).mpr h)
        by_cases he : ((trim s).head? == some '"' && (trim s).getLast? == some '"') = true
        · rw [if_pos he]
          obtain ⟨y, hy⟩ := (ends_iff _ hq').mp he
          rw [hy, if_neg (by simp), inner_quoted, checked_iff]
          constructor
          · intro h
            cases h with
            | list ht => exact absurd ht hL
            | string ht hs h1 h2 h3 =>
              have := (strips_trim _ _).mp hs
              rw [hy] at this
              have e := List.append_cancel_right (List.cons.inj this).2
              subst e
              exact ⟨.string h1 h2 h3, rfl⟩
            | numeric ht hs hx _ =>
              rw [(strips_trim _ _).mp hs, hy] at hx
              exact absurd (by simp) hx
            | token ht hs _ hg =>
              rw [(strips_trim _ _).mp hs, hy] at hg
              exact absurd (by simp) (goodToken_no hg '"' (by decide) (by decide))
          · rintro ⟨ha, rfl⟩
            cases ha with
            | string h1 h2 h3 => exact .string hL ((strips_trim _ _).mpr hy.symm) h1 h2 h3
        · rw [if_neg he]
          have hno : ¬ ∃ y, trim s = '"' :: y ++ ['"'] := fun hh => he ((ends_iff _ hq').mpr hh)
          have hm : '"' ∉ trim s := by
            intro hm
            rw [List.contains_iff_mem.mpr hm] at hq'
            simp only [Bool.true_and, Bool.not_eq_false'] at hq'
            exact hno ((quoted_iff _).mp hq')
          constructor
          · intro h
            cases h with
            | list ht => exact absurd ht hL
            | string ht hs _ _ _ => exact absurd ⟨_, ((strips_trim _ _).mp hs).symm⟩ hno
            | numeric ht hs hx hr => rw [(strips_trim _ _).mp hs] at hr; rw [hr]
            | token ht hs hr hg =>
              rw [(strips_trim _ _).mp hs] at hr hg
              rw [hr]
              show checked _ = _
              rw [(strips_trim _ _).mp hs, checked_iff]
              exact ⟨.token hg, rfl⟩
          · intro h
            split at h
            · rename_i n hr
              simp only [Option.some.injEq] at h
              subst h
              exact .numeric hL ((strips_trim _ _).mpr rfl) hm hr
            · cases h
            · rename_i hr
              rw [checked_iff] at h
              obtain ⟨ha, rfl⟩ := h
              cases ha with
              | token hg => exact .token hL ((strips_trim _ _).mpr rfl) hr hg

theorem reads_allowed {F : Floats} {t : Tag} {o : Option Str} {v : Value} (h : Reads F t o v) : Allowed v := by
  cases h with
  | flag => exact .boolean true
  | list _ _ _ _ _ hn hg => exact .list hn (filtered_good hg)
  | string _ _ h1 h2 h3 => exact .string h1 h2 h3
  | numeric => exact .numeric _
  | token _ _ _ hg => exact .token hg

end Siphon.Prefs
