import Verif.Registrar.StoreLemmas
import Verif.Base.TextLemmas
import Verif.Auth.Lemmas
set_option linter.unusedSimpArgs false
/-! Reading Contact values, CSeq and addresses-of-record: the model's readers and the specification. -/
namespace Siphon.Registrar
open Spec HdrSpec TextSpec Auth.Spec
open Siphon.Auth (splitOnce_some_iff trim_eqn strips_trimStart
  strips_trimEnd NoSep NoSep_cons NoSep_cons' joinCommas_cons element_iff mem_dropWhile_sub)

/-! ## Trimming -/

theorem trim_around (a x b : Str) (ha : ∀ c ∈ a, isWs c = true) (hb : ∀ c ∈ b, isWs c = true) :
    trim (a ++ x ++ b) = trim x := by
  obtain ⟨a', b', h1, h2, h3, h4, h5⟩ := strips_stripBoth isWs x
  have : Strips isWs (a ++ x ++ b) (trim x) := by
    refine ⟨a ++ a', b' ++ b, ?_, ?_, ?_, h4, h5⟩
    · conv => lhs; rw [h1]
      simp only [List.append_assoc]; rfl
    · intro c hc; rcases List.mem_append.mp hc with hc | hc
      · exact ha c hc
      · exact h2 c hc
    · intro c hc; rcases List.mem_append.mp hc with hc | hc
      · exact h3 c hc
      · exact hb c hc
  exact ((strips_trim _ _).mp this).symm

theorem trim_split (s : Str) : ∃ a b, s = a ++ trim s ++ b ∧ (∀ c ∈ a, isWs c = true) ∧ ∀ c ∈ b, isWs c = true := by
  obtain ⟨a, b, h1, h2, h3, _, _⟩ := strips_stripBoth isWs s
  exact ⟨a, b, h1, h2, h3⟩

theorem trim_trim (s : Str) : trim (trim s) = trim s := by
  obtain ⟨a, b, h1, h2, h3⟩ := trim_split s
  conv => rhs; rw [h1]
  rw [trim_around _ _ _ h2 h3]

theorem mem_of_mem_trim {c : Char} {s : Str} (h : c ∈ trim s) : c ∈ s := by
  obtain ⟨a, b, h1, _, _⟩ := trim_split s
  rw [h1]; simp [h]

theorem splitOnce_none_iff (c : Char) (s : Str) : splitOnce c s = none ↔ c ∉ s := by
  constructor
  · intro h hm
    obtain ⟨a, b, rfl, hna⟩ := List.eq_append_cons_of_mem hm
    rw [splitOnce_append c a b hna] at h
    cases h
  · exact splitOnce_none c s

theorem sameName_trim (s name : Str) :
    (∃ k', Strips isWs s k' ∧ SameName k' name) ↔ eqIgnoreCase (trim s) name = true := by
  constructor
  · rintro ⟨k', h1, h2⟩
    rw [(strips_trim s k').mp h1] at h2
    exact (sameName_iff _ _).mp h2
  · intro h; exact ⟨trim s, (strips_trim s _).mpr rfl, (sameName_iff _ _).mpr h⟩

/-! ## Parameters -/

theorem named_some {p k v : Str} (h : splitOnce '=' p = some (k, v)) (name : Str) :
    Named p name ↔ eqIgnoreCase (trim k) name = true := by
  rw [← sameName_trim]
  have hh := (splitOnce_some_iff _ _ _ _).mp h
  constructor
  · rintro (⟨k1, v1, k', h1, h2, h3, h4⟩ | ⟨h1, _⟩)
    · rw [(splitOnce_some_iff _ _ _ _).mpr ⟨h1, h2⟩] at h
      simp only [Option.some.injEq, Prod.mk.injEq] at h
      obtain ⟨rfl, rfl⟩ := h
      exact ⟨k', h3, h4⟩
    · exact absurd (by rw [hh.1]; simp) h1
  · rintro ⟨k', h3, h4⟩; exact Or.inl ⟨k, v, k', hh.1, hh.2, h3, h4⟩

theorem named_none {p : Str} (h : splitOnce '=' p = none) (name : Str) :
    Named p name ↔ eqIgnoreCase (trim p) name = true := by
  rw [← sameName_trim]
  have hh := (splitOnce_none_iff _ _).mp h
  constructor
  · rintro (⟨k1, v1, k', h1, _⟩ | ⟨_, h2⟩)
    · exact absurd (by rw [h1]; simp) hh
    · exact h2
  · intro h2; exact Or.inr ⟨hh, h2⟩

theorem valued_iff {p k v : Str} (h : splitOnce '=' p = some (k, v)) (name value : Str) :
    Valued p name value ↔ eqIgnoreCase (trim k) name = true ∧ value = trim v ∧ value ≠ [] := by
  have hh := (splitOnce_some_iff _ _ _ _).mp h
  constructor
  · rintro ⟨k1, v1, k', h1, h2, h3, h4, h5, h6⟩
    rw [(splitOnce_some_iff _ _ _ _).mpr ⟨h1, h2⟩] at h
    simp only [Option.some.injEq, Prod.mk.injEq] at h
    obtain ⟨rfl, rfl⟩ := h
    exact ⟨(sameName_trim _ _).mp ⟨k', h3, h4⟩, (strips_trim _ _).mp h5, h6⟩
  · rintro ⟨h1, h2, h3⟩
    obtain ⟨k', h4, h5⟩ := (sameName_trim _ _).mpr h1
    exact ⟨k, v, k', hh.1, hh.2, h4, h5, (strips_trim _ _).mpr h2, h3⟩

theorem not_valued_none {p : Str} (h : splitOnce '=' p = none) (name value : Str) : ¬ Valued p name value := by
  rintro ⟨k, v, k', h1, _⟩
  exact (splitOnce_none_iff _ _).mp h (by rw [h1]; simp)

theorem valued_named {p name value : Str} (h : Valued p name value) : Named p name := by
  obtain ⟨k, v, k', h1, h2, h3, h4, _⟩ := h
  exact Or.inl ⟨k, v, k', h1, h2, h3, h4⟩

theorem find_cons (name : Str) (hn : name ≠ []) (p : Str) (ps : List Str) :
    findContactParam name (p :: ps) =
      match splitOnce '=' p with
      | some (k, v) =>
        if eqIgnoreCase (trim k) name then (if (trim v).isEmpty then .error () else .ok (some (trim v)))
        else findContactParam name ps
      | none => if eqIgnoreCase (trim p) name then .error () else findContactParam name ps := by
  have hempty : eqIgnoreCase [] name = false := by
    cases name with
    | nil => exact absurd rfl hn
    | cons c cs => simp [eqIgnoreCase, lower]
  simp only [findContactParam]
  cases hp : splitOnce '=' p with
  | none =>
    have h1 : splitOnce '=' (trim p) = none :=
      (splitOnce_none_iff _ _).mpr (fun hm => (splitOnce_none_iff _ _).mp hp (mem_of_mem_trim hm))
    rw [h1]
    by_cases he : (trim p).isEmpty = true
    · rw [if_pos he]
      have : trim p = [] := by simpa using he
      simp only [this, hempty, Bool.false_eq_true, if_false]
    · rw [if_neg he]
  | some kv =>
    obtain ⟨k, v⟩ := kv
    have hh := (splitOnce_some_iff _ _ _ _).mp hp
    have ht : trim p = trimStart k ++ '=' :: trimEnd v := by rw [hh.1]; exact trim_eqn k v
    have h1 : splitOnce '=' (trim p) = some (trimStart k, trimEnd v) := by
      rw [ht]; exact splitOnce_append _ _ _ (fun hm => hh.2 (mem_dropWhile_sub hm))
    have hne : (trim p).isEmpty = false := by rw [ht]; cases trimStart k <;> rfl
    rw [hne, h1]
    simp only [Bool.false_eq_true, if_false, strips_trimStart, strips_trimEnd]

theorem find_some_iff (name : Str) (hn : name ≠ []) (value : Str) : ∀ ps : List Str,
    findContactParam name ps = .ok (some value) ↔
      ∃ before p later, ps = before ++ p :: later ∧ Valued p name value ∧ ∀ q ∈ before, ¬ Named q name
  | [] => by simp [findContactParam]
  | p :: ps => by
    have ih := find_some_iff name hn value ps
    have step : ¬ Named p name → ((∃ before q later, p :: ps = before ++ q :: later ∧ Valued q name value ∧
        ∀ q ∈ before, ¬ Named q name) ↔ findContactParam name ps = .ok (some value)) := by
      intro hnn
      rw [ih]
      constructor
      · rintro ⟨before, q, later, h1, h2, h3⟩
        cases before with
        | nil =>
          simp only [List.nil_append, List.cons.injEq] at h1
          exact absurd (valued_named (h1.1 ▸ h2)) hnn
        | cons b bs =>
          simp only [List.cons_append, List.cons.injEq] at h1
          exact ⟨bs, q, later, h1.2, h2, fun x hx => h3 x (by simp [hx])⟩
      · rintro ⟨before, q, later, h1, h2, h3⟩
        refine ⟨p :: before, q, later, by rw [h1]; rfl, h2, ?_⟩
        intro x hx
        rcases List.mem_cons.mp hx with rfl | hx
        · exact hnn
        · exact h3 x hx
    have first : Named p name → ((∃ before q later, p :: ps = before ++ q :: later ∧ Valued q name value ∧
        ∀ q ∈ before, ¬ Named q name) ↔ Valued p name value) := by
      intro hnn
      constructor
      · rintro ⟨before, q, later, h1, h2, h3⟩
        cases before with
        | nil => simp only [List.nil_append, List.cons.injEq] at h1; exact h1.1 ▸ h2
        | cons b bs =>
          simp only [List.cons_append, List.cons.injEq] at h1
          exact absurd (h1.1 ▸ hnn) (h3 b (by simp))
      · intro h; exact ⟨[], p, ps, rfl, h, by simp⟩
    rw [find_cons name hn]
    cases hp : splitOnce '=' p with
    | none =>
      simp only
      by_cases he : eqIgnoreCase (trim p) name = true
      · rw [if_pos he, first ((named_none hp name).mpr he)]
        simp [not_valued_none hp]
      · rw [if_neg he, step (fun h => he ((named_none hp name).mp h))]
    | some kv =>
      obtain ⟨k, v⟩ := kv
      simp only
      by_cases he : eqIgnoreCase (trim k) name = true
      · rw [if_pos he, first ((named_some hp name).mpr he), valued_iff hp]
        by_cases hv : (trim v).isEmpty = true
        · rw [if_pos hv]
          constructor
          · simp
          · rintro ⟨_, h2, h3⟩; exact absurd (by rw [h2]; simpa using hv) h3
        · rw [if_neg hv]
          simp only [Except.ok.injEq, Option.some.injEq]
          constructor
          · intro h; exact ⟨he, h.symm, by rw [← h]; simpa using hv⟩
          · rintro ⟨_, h2, _⟩; exact h2.symm
      · rw [if_neg he, step (fun h => he ((named_some hp name).mp h))]

theorem find_none_iff (name : Str) (hn : name ≠ []) : ∀ ps : List Str,
    findContactParam name ps = .ok none ↔ ∀ q ∈ ps, ¬ Named q name
  | [] => by simp [findContactParam]
  | p :: ps => by
    have ih := find_none_iff name hn ps
    rw [find_cons name hn]
    cases hp : splitOnce '=' p with
    | none =>
      simp only [List.mem_cons, forall_eq_or_imp]
      rw [named_none hp, ← ih]
      by_cases he : eqIgnoreCase (trim p) name = true
      · simp [he]
      · simp [he]
    | some kv =>
      obtain ⟨k, v⟩ := kv
      simp only [List.mem_cons, forall_eq_or_imp]
      rw [named_some hp, ← ih]
      by_cases he : eqIgnoreCase (trim k) name = true
      · by_cases hv : (trim v).isEmpty = true
        · simp [he, hv]
        · simp [he, hv]
      · simp [he]

theorem param_iff (sec name value : Str) (hn : name ≠ []) :
    Param sec name value ↔ findContactParam name (splitChar ';' sec) = .ok (some value) := by
  rw [find_some_iff name hn]
  constructor
  · rintro ⟨b, p, l, h1, h2, h3⟩; exact ⟨b, p, l, ((pieces_iff _ _ _).mp h1).symm, h2, h3⟩
  · rintro ⟨b, p, l, h1, h2, h3⟩; exact ⟨b, p, l, (pieces_iff _ _ _).mpr h1.symm, h2, h3⟩

theorem noParam_iff (sec name : Str) (hn : name ≠ []) :
    NoParam sec name ↔ findContactParam name (splitChar ';' sec) = .ok none := by
  rw [find_none_iff name hn]
  constructor
  · rintro ⟨ps, h1, h2⟩; rw [← (pieces_iff _ _ _).mp h1]; exact h2
  · intro h; exact ⟨_, (pieces_iff _ _ _).mpr rfl, h⟩

/-! ## The parameters of a Contact value -/

theorem find_map_trim (name : Str) (hn : name ≠ []) : ∀ ps : List Str,
    findContactParam name (ps.map trim) = findContactParam name ps
  | [] => rfl
  | p :: ps => by
    rw [List.map_cons]
    simp only [findContactParam, trim_trim, find_map_trim name hn ps]

theorem splitChar_front (c : Char) (a : Str) (ha : c ∉ a) (s : Str) : ∀ h t, splitChar c s = h :: t →
    splitChar c (a ++ s) = (a ++ h) :: t := by
  induction a with
  | nil => intro h t e; simpa using e
  | cons x xs ih =>
    intro h t e
    have hx : ¬ x = c := by rintro rfl; simp at ha
    have := ih (fun hm => ha (by simp [hm])) h t e
    simp only [List.cons_append, splitChar, if_neg hx, this]

theorem splitChar_back (c : Char) (b : Str) (hb : c ∉ b) : ∀ s : Str,
    ∃ init last, splitChar c s = init ++ [last] ∧ splitChar c (s ++ b) = init ++ [last ++ b]
  | [] => ⟨[], [], rfl, by rw [List.nil_append, splitChar_of_not_mem c b hb]; rfl⟩
  | x :: xs => by
    obtain ⟨init, last, h1, h2⟩ := splitChar_back c b hb xs
    simp only [List.cons_append, splitChar]
    by_cases hx : x = c
    · simp only [if_pos hx]
      exact ⟨[] :: init, last, by rw [h1]; rfl, by rw [h2]; rfl⟩
    · simp only [if_neg hx]
      cases init with
      | nil => exact ⟨[], x :: last, by rw [h1]; rfl, by rw [h2]; rfl⟩
      | cons i is => exact ⟨(x :: i) :: is, last, by rw [h1]; rfl, by rw [h2]; rfl⟩

theorem ws_not_mem (c : Char) (hc : isWs c = false) (a : Str) (ha : ∀ x ∈ a, isWs x = true) : c ∉ a := by
  intro hm; rw [ha c hm] at hc; cases hc

theorem map_trim_splitChar (c : Char) (hc : isWs c = false) (s : Str) :
    (splitChar c (trim s)).map trim = (splitChar c s).map trim := by
  obtain ⟨a, b, h1, h2, h3⟩ := trim_split s
  have ha := ws_not_mem c hc a h2
  have hb := ws_not_mem c hc b h3
  obtain ⟨init, last, e1, e2⟩ := splitChar_back c b hb (trim s)
  conv => rhs; rw [h1, List.append_assoc]
  cases hs : splitChar c (trim s ++ b) with
  | nil => exact absurd hs (splitChar_ne_nil c _)
  | cons h t =>
    rw [splitChar_front c a ha _ h t hs]
    have ht : trim (a ++ h) = trim h := by
      have := trim_around a h [] h2 (by simp)
      simpa using this
    have hl : trim (last ++ b) = trim last := by
      have := trim_around [] last b (by simp) h3
      simpa using this
    rw [List.map_cons, ht, ← List.map_cons, ← hs, e2, e1]
    simp [hl]

theorem find_trim (name : Str) (hn : name ≠ []) (s : Str) :
    findContactParam name (splitChar ';' (trim s)) = findContactParam name (splitChar ';' s) := by
  rw [← find_map_trim name hn (splitChar ';' (trim s)), map_trim_splitChar ';' (by decide), find_map_trim name hn]

theorem find_blank (name : Str) (ps : List Str) : findContactParam name ([] :: ps) = findContactParam name ps := by
  have : trim [] = [] := rfl
  simp [findContactParam, this]

/-- the part of `contact_param_value` after the section has been found -/
theorem find_section (name : Str) (hn : name ≠ []) (sec : Str) :
    (let ps := trim sec
     let ps := stripSemi ps
     if ps.isEmpty then .ok none else findContactParam name (splitChar ';' ps))
      = findContactParam name (splitChar ';' sec) := by
  rw [← find_trim name hn sec]
  generalize trim sec = u
  simp only
  cases u with
  | nil => simp [stripSemi, splitChar, find_blank, findContactParam]
  | cons c r =>
    by_cases hc : c = ';'
    · subst hc
      simp only [stripSemi, splitChar, if_true]
      rw [find_blank]
      cases r with
      | nil => simp [splitChar, find_blank, findContactParam]
      | cons x xs => simp
    · simp [stripSemi, hc]

theorem contactOf_param {v uri sec : Str} (h : ContactOf v uri sec) (name : Str) (hn : name ≠ []) :
    contactParamValue v name = findContactParam name (splitChar ';' sec) := by
  obtain ⟨t, ht, hu, hh⟩ := h
  have ht' : trim v = t := ((strips_trim _ _).mp ht).symm
  unfold contactParamValue
  simp only [ht']
  by_cases hstar : t = ['*']
  · rw [if_pos hstar]
    rcases hh with ⟨pre, u, h1, _⟩ | ⟨_, u, h1, h2, h3, _⟩
    · have : '<' ∈ t := by rw [h1]; simp
      rw [hstar] at this; simp at this
    · have hs : sec = [] := by
        rcases h3 with h3 | h3
        · exact h3
        · exfalso
          cases sec with
          | nil => simp at h3
          | cons c r =>
            simp only [List.head?_cons, Option.some.injEq] at h3
            have : ';' ∈ t := by rw [h1, h3]; simp
            rw [hstar] at this; simp at this
      rw [hs]; simp [splitChar, find_blank, findContactParam]
  · rw [if_neg hstar]
    have hsec : contactParamSection t = .ok (some (trim sec)) ∨ contactParamSection t = .ok (some sec) ∨
        (contactParamSection t = .ok none ∧ sec = []) := by
      unfold contactParamSection
      rcases hh with ⟨pre, u, h1, h2, h3, _⟩ | ⟨h0, u, h1, h2, h3, _⟩
      · left
        rw [h1, splitOnce_append _ _ _ h2]
        simp only
        rw [splitOnce_append _ _ _ h3]
      · right
        rw [splitOnce_none _ _ h0]
        simp only
        rcases h3 with h3 | h3
        · right
          rw [h1, h3, List.append_nil, splitOnce_none _ _ h2]
          exact ⟨rfl, rfl⟩
        · left
          cases sec with
          | nil => simp at h3
          | cons c r =>
            simp only [List.head?_cons, Option.some.injEq] at h3
            subst h3
            rw [h1, splitOnce_append _ _ _ h2]
    rcases hsec with e | e | ⟨e, e2⟩
    · rw [e]; exact (find_section name hn (trim sec)).trans (find_trim name hn sec)
    · rw [e]; exact find_section name hn sec
    · rw [e, e2]; simp [splitChar, find_blank, findContactParam]

theorem contactOf_extract {v uri sec : Str} (h : ContactOf v uri sec) : extractContactUri v = some uri := by
  obtain ⟨t, ht, hu, hh⟩ := h
  have ht' : trim v = t := ((strips_trim _ _).mp ht).symm
  unfold extractContactUri
  simp only [ht']
  rcases hh with ⟨pre, u, h1, h2, h3, h4⟩ | ⟨h0, u, h1, h2, h3, h4⟩
  · rw [h1, splitOnce_append _ _ _ h2]
    simp only
    rw [splitOnce_append _ _ _ h3]
    simp only
    rw [← (strips_trim _ _).mp h4, if_neg (by simpa using hu)]
  · rw [splitOnce_none _ _ h0]
    simp only
    rcases h3 with h3 | h3
    · subst h3
      rw [List.append_nil] at h1
      subst h1
      rw [splitOnce_none _ _ h2]
      have hu' : uri = t := by rw [(strips_trim _ _).mp h4, ← ht', trim_trim]
      subst hu'
      simp only
      rw [if_neg (by simpa using hu)]
    · cases sec with
      | nil => simp at h3
      | cons c r =>
        simp only [List.head?_cons, Option.some.injEq] at h3
        subst h3
        rw [h1, splitOnce_append _ _ _ h2]
        simp only
        rw [← (strips_trim _ _).mp h4, if_neg (by simpa using hu)]

theorem extract_contactOf {v uri : Str} (h : extractContactUri v = some uri) : ∃ sec, ContactOf v uri sec := by
  unfold extractContactUri at h
  simp only at h
  have ht : Strips isWs v (trim v) := (strips_trim _ _).mpr rfl
  cases h1 : splitOnce '<' (trim v) with
  | some x =>
    obtain ⟨pre, rest⟩ := x
    rw [h1] at h
    simp only at h
    cases h2 : splitOnce '>' rest with
    | none => rw [h2] at h; cases h
    | some y =>
      obtain ⟨u, sec⟩ := y
      rw [h2] at h
      simp only at h
      split at h
      · cases h
      · rename_i hne
        simp only [Option.some.injEq] at h
        obtain ⟨e1, e2⟩ := (splitOnce_some_iff _ _ _ _).mp h1
        obtain ⟨e3, e4⟩ := (splitOnce_some_iff _ _ _ _).mp h2
        exact ⟨sec, trim v, ht, by rw [← h]; simpa using hne,
          Or.inl ⟨pre, u, by rw [e1, e3], e2, e4, (strips_trim _ _).mpr h.symm⟩⟩
  | none =>
    rw [h1] at h
    simp only at h
    have h0 := (splitOnce_none_iff _ _).mp h1
    cases h2 : splitOnce ';' (trim v) with
    | some y =>
      obtain ⟨u, r⟩ := y
      rw [h2] at h
      simp only at h
      split at h
      · cases h
      · rename_i hne
        simp only [Option.some.injEq] at h
        obtain ⟨e3, e4⟩ := (splitOnce_some_iff _ _ _ _).mp h2
        exact ⟨';' :: r, trim v, ht, by rw [← h]; simpa using hne,
          Or.inr ⟨h0, u, e3, e4, Or.inr rfl, (strips_trim _ _).mpr h.symm⟩⟩
    | none =>
      rw [h2] at h
      simp only at h
      split at h
      · cases h
      · rename_i hne
        simp only [Option.some.injEq] at h
        refine ⟨[], trim v, ht, by rw [← h]; simpa using hne,
          Or.inr ⟨h0, trim v, by simp, (splitOnce_none_iff _ _).mp h2, Or.inl rfl, ?_⟩⟩
        rw [strips_trim, trim_trim, h]

theorem about_iff (v uri : Str) : About v uri ↔ extractContactUri v = some uri :=
  ⟨fun ⟨_, h⟩ => contactOf_extract h, extract_contactOf⟩

/-! ## Lists of Contact values -/

/-- the raw elements of a list -/
def rawPieces : Str → Str → Q → List Str
  | [], cur, _ => [cur]
  | c :: s, cur, q => if c = ',' ∧ q = .outside then cur :: rawPieces s [] .outside else rawPieces s (cur ++ [c]) (q.next c)

def nonblank (ps : List Str) : List Str := (ps.map trim).filter (fun t => !t.isEmpty)

theorem nonblank_cons (p : Str) (ps : List Str) :
    nonblank (p :: ps) = if (trim p).isEmpty then nonblank ps else trim p :: nonblank ps := by
  unfold nonblank
  by_cases h : (trim p).isEmpty = true <;> simp [h]

theorem splitCommas_eq : ∀ (s cur : Str) (q : Q),
    (splitCommas s cur (Auth.flagsOf q).1 (Auth.flagsOf q).2).1 = nonblank (rawPieces s cur q)
  | [], cur, q => by
    simp only [splitCommas, rawPieces, nonblank_cons]
    split <;> rfl
  | c :: s, cur, q => by
    have ih0 := splitCommas_eq s [] .outside
    cases q with
    | outside =>
      have iho := splitCommas_eq s (cur ++ [c]) .outside
      have ihi := splitCommas_eq s (cur ++ [c]) .inside
      simp only [Auth.flagsOf] at ih0 iho ihi ⊢
      simp only [splitCommas, rawPieces, Q.next]
      by_cases h1 : c = '"'
      · subst h1
        simp only [show ¬ ('"' = ',' ∧ Q.outside = .outside) by decide, if_false, beq_self_eq_true, if_true,
          Bool.and_false, Bool.false_eq_true, Bool.not_false]
        exact ihi
      · by_cases h2 : c = ','
        · subst h2
          simp only [h1, beq_iff_eq, Bool.false_eq_true, if_false, Bool.and_false, Bool.not_false, Bool.and_true,
            and_self, if_true, decide_true, nonblank_cons, beq_self_eq_true]
          rw [ih0]
        · simp only [h1, h2, beq_iff_eq, Bool.false_eq_true, if_false, Bool.and_false, false_and, Bool.not_false,
            Bool.and_true, decide_false]
          exact iho
    | inside =>
      have ihi := splitCommas_eq s (cur ++ [c]) .inside
      have iho := splitCommas_eq s (cur ++ [c]) .outside
      have ihe := splitCommas_eq s (cur ++ [c]) .escaped
      simp only [Auth.flagsOf] at ihi iho ihe ⊢
      simp only [splitCommas, rawPieces, Q.next]
      by_cases h1 : c = '"'
      · subst h1
        simp only [show ¬ ('"' = ',' ∧ Q.inside = .outside) by decide, if_false, beq_self_eq_true, if_true,
          show ('"' == '\\') = false by decide, Bool.false_and, Bool.false_eq_true, Bool.not_true]
        exact iho
      · by_cases h2 : c = '\\'
        · subst h2
          simp only [show ¬ ('\\' = ',' ∧ Q.inside = .outside) by decide, if_false, beq_self_eq_true, if_true,
            Bool.and_true, Bool.false_eq_true, show ¬ ('\\' = '"') by decide]
          exact ihe
        · have : ¬ (c = ',' ∧ Q.inside = .outside) := by simp
          simp only [h1, h2, this, beq_iff_eq, Bool.false_eq_true, if_false, Bool.and_true, Bool.not_true,
            Bool.and_false, decide_false]
          exact ihi
    | escaped =>
      have ihi := splitCommas_eq s (cur ++ [c]) .inside
      simp only [Auth.flagsOf] at ihi ⊢
      have : ¬ (c = ',' ∧ Q.escaped = .outside) := by simp
      simp only [splitCommas, rawPieces, Q.next, this, if_false, if_true]
      exact ihi

theorem rawPieces_append : ∀ (a s cur : Str) (q : Q), NoSep q a →
    rawPieces (a ++ s) cur q = rawPieces s (cur ++ a) (a.foldl Q.next q)
  | [], s, cur, q, _ => by simp
  | c :: a, s, cur, q, h => by
    have := NoSep_cons h
    rw [List.cons_append, rawPieces, if_neg this.1, rawPieces_append a s _ _ this.2]
    simp

theorem elements_rawPieces {raw : Str} {ps : List Str} (h : Elements raw ps) : rawPieces raw [] .outside = ps := by
  obtain ⟨init, last, rfl, rfl, h3, h4⟩ := h
  induction init with
  | nil =>
    simp only [List.nil_append, joinCommas]
    have := rawPieces_append last [] [] .outside h4
    rw [List.append_nil, List.nil_append] at this
    rw [this, rawPieces]
  | cons p init ih =>
    have hp := (element_iff p).mp (h3 p (by simp))
    rw [List.cons_append, joinCommas_cons _ _ (by simp), rawPieces_append p _ _ _ hp.2,
      show p.foldl Q.next .outside = .outside from hp.1, rawPieces, if_pos ⟨rfl, rfl⟩, List.nil_append,
      ih (fun q hq => h3 q (by simp [hq]))]

theorem rawPieces_elements : ∀ (s cur : Str), NoSep .outside cur →
    Elements (cur ++ s) (rawPieces s cur (quoteState cur))
  | [], cur, h => by
    rw [rawPieces, List.append_nil]
    exact ⟨[], cur, rfl, rfl, by simp, h⟩
  | c :: s, cur, h => by
    rw [rawPieces]
    split
    · rename_i hc
      obtain ⟨rfl, hq⟩ := hc
      have ih := rawPieces_elements s [] (by intro x y hxy; simp at hxy)
      have e : quoteState ([] : Str) = .outside := rfl
      rw [e, List.nil_append] at ih
      obtain ⟨init, last, h1, h2, h3, h4⟩ := ih
      refine ⟨cur :: init, last, by rw [h1]; rfl, ?_, ?_, h4⟩
      · rw [joinCommas_cons _ _ (by rw [h1]; simp), ← h2]
      · intro p hp
        rcases List.mem_cons.mp hp with rfl | hp
        · exact ⟨hq, h⟩
        · exact h3 p hp
    · rename_i hc
      have hn : NoSep .outside (cur ++ [c]) := by
        intro x y hxy hout
        rcases List.append_eq_append_iff.mp hxy with ⟨a', h1, h2⟩ | ⟨c', h1, h2⟩
        · cases a' with
          | nil =>
            simp only [List.nil_append, List.cons.injEq] at h2
            rw [List.append_nil] at h1
            exact hc ⟨h2.1, by unfold quoteState; rw [← h1]; exact hout⟩
          | cons z zs => simp at h2
        · cases c' with
          | nil =>
            simp only [List.nil_append, List.cons.injEq] at h2
            rw [List.append_nil] at h1
            exact hc ⟨h2.1.symm, by unfold quoteState; rw [h1]; exact hout⟩
          | cons z zs =>
            simp only [List.cons_append, List.cons.injEq] at h2
            exact h x zs (by rw [h1, h2.1]) hout
      have := rawPieces_elements s (cur ++ [c]) hn
      have e : quoteState (cur ++ [c]) = (quoteState cur).next c := by
        unfold quoteState; rw [List.foldl_append]; rfl
      rw [e] at this
      simpa using this

theorem elements_iff (raw : Str) (ps : List Str) : Elements raw ps ↔ ps = rawPieces raw [] .outside := by
  constructor
  · intro h; exact (elements_rawPieces h).symm
  · rintro rfl
    exact rawPieces_elements raw [] (by intro x y hxy; simp at hxy)

theorem nonblank_iff : ∀ (ps qs : List Str), Nonblank ps qs ↔ qs = nonblank ps
  | [], qs => by
    constructor
    · intro h; cases h; rfl
    · rintro rfl; exact .nil
  | p :: ps, qs => by
    rw [nonblank_cons]
    constructor
    · intro h
      cases h with
      | drop h1 h2 =>
        rw [← (strips_trim _ _).mp h1, (nonblank_iff ps qs).mp h2]; rfl
      | keep h1 h2 h3 =>
        rw [← (strips_trim _ _).mp h1, if_neg (by simpa using h2), (nonblank_iff ps _).mp h3]
    · intro h
      split at h
      · rename_i he
        exact .drop ((strips_trim _ _).mpr (by simpa using he : trim p = []).symm) ((nonblank_iff ps qs).mpr h)
      · rename_i he
        rw [h]
        exact .keep ((strips_trim _ _).mpr rfl) (by simpa using he) ((nonblank_iff ps _).mpr rfl)

theorem listed_iff : ∀ (raws vs : List Str), Listed raws vs ↔
    vs = raws.flatMap (fun v => (splitCommas v [] false false).1)
  | [], vs => by
    constructor
    · intro h; cases h; rfl
    · rintro rfl; exact .nil
  | raw :: raws, vs => by
    have e : (splitCommas raw [] false false).1 = nonblank (rawPieces raw [] .outside) := splitCommas_eq raw [] .outside
    rw [List.flatMap_cons, e]
    constructor
    · intro h
      cases h with
      | cons h1 h2 h3 =>
        rw [(listed_iff raws _).mp h3, (nonblank_iff _ _).mp h2, (elements_iff _ _).mp h1]
    · rintro rfl
      exact .cons ((elements_iff _ _).mpr rfl) ((nonblank_iff _ _).mpr rfl) ((listed_iff raws _).mpr rfl)

theorem contacts_iff (hs : Headers) (vs : List Str) : Contacts hs vs ↔ vs = contactHeaders hs := by
  unfold contactHeaders
  constructor
  · rintro ⟨raws, h1, h2⟩
    rw [selects_unique h1 (C24_getAll hs _)] at h2
    exact (listed_iff _ _).mp h2
  · intro h
    exact ⟨_, C24_getAll hs _, (listed_iff _ _).mpr h⟩

/-! ## Expiry -/

theorem selects_nil_iff (hs : Headers) (n : Str) : Selects n hs.inner [] ↔ hs.get n = none := by
  constructor
  · intro h
    have e := selects_unique h (C24_getAll hs n)
    unfold Headers.getAll at e
    unfold Headers.get Headers.getHeader
    rw [← List.head?_filter]
    cases hf : hs.inner.filter (·.nameEq n) with
    | nil => rfl
    | cons a l => rw [hf] at e; simp at e
  · intro h
    have e := C24_getAll hs n
    have : hs.getAll n = [] := by
      unfold Headers.get Headers.getHeader at h
      unfold Headers.getAll
      rw [← List.head?_filter] at h
      cases hf : hs.inner.filter (·.nameEq n) with
      | nil => rfl
      | cons a l => rw [hf] at h; simp at h
    rw [this] at e; exact e

theorem parseExpires_wanted {r : Reg} {req : Request} {v uri sec : Str} {n : Nat} (hc : ContactOf v uri sec)
    (h : r.parseExpires req v = .ok n) :
    Wanted req.headers (r.defaultExpires / SEC) sec n ∧
      (n = 0 ∨ (r.minExpires / SEC ≤ n ∧ n ≤ r.maxExpires / SEC)) := by
  unfold Reg.parseExpires at h
  have hne : "expires".toList ≠ [] := by decide
  rw [contactOf_param hc _ hne] at h
  cases hcv : findContactParam "expires".toList (splitChar ';' sec) with
  | error e => rw [hcv] at h; cases h
  | ok cv =>
    rw [hcv] at h
    simp only at h
    cases hp : parseOpt U64_MAX cv with
    | error e => rw [hp] at h; cases h
    | ok ce =>
      rw [hp] at h
      simp only at h
      cases hq : parseOpt U64_MAX (req.headers.get "Expires".toList) with
      | error e => rw [hq] at h; cases h
      | ok he =>
        rw [hq] at h
        simp only at h
        have hb : firstOf ce he (r.defaultExpires / SEC) = n ∧
            (n = 0 ∨ (r.minExpires / SEC ≤ n ∧ n ≤ r.maxExpires / SEC)) := by
          generalize firstOf ce he (r.defaultExpires / SEC) = m at h
          split at h
          · rename_i h0; simp only [Except.ok.injEq] at h; exact ⟨by omega, Or.inl h.symm⟩
          · split at h
            · cases h
            · split at h
              · cases h
              · simp only [Except.ok.injEq] at h; exact ⟨h, Or.inr (by omega)⟩
        refine ⟨?_, hb.2⟩
        have hf := hb.1
        cases cv with
        | some e =>
          left
          refine ⟨e, (param_iff _ _ _ hne).mpr hcv, ?_⟩
          simp only [parseOpt] at hp
          cases hd : parseDec U64_MAX e with
          | none => rw [hd] at hp; cases hp
          | some m =>
            rw [hd] at hp
            simp only [Except.ok.injEq] at hp
            rw [← hp] at hf
            simp only [firstOf] at hf
            rw [← hf]
            exact parseDec_some hd
        | none =>
          right
          have hno := (noParam_iff _ _ hne).mpr hcv
          simp only [parseOpt, Except.ok.injEq] at hp
          rw [← hp] at hf
          cases hg : req.headers.get "Expires".toList with
          | none =>
            right
            rw [hg] at hq
            simp only [parseOpt, Except.ok.injEq] at hq
            rw [← hq] at hf
            exact ⟨hno, (selects_nil_iff _ _).mpr hg, hf.symm⟩
          | some e =>
            left
            rw [hg] at hq
            simp only [parseOpt] at hq
            obtain ⟨more, hm⟩ := Auth.selects_of_get hg
            cases hd : parseDec U64_MAX e with
            | none => rw [hd] at hq; cases hq
            | some m =>
              rw [hd] at hq
              simp only [Except.ok.injEq] at hq
              rw [← hq] at hf
              simp only [firstOf] at hf
              exact ⟨hno, e, more, hm, by rw [← hf]; exact parseDec_some hd⟩

theorem param_fun {sec name a b : Str} (hn : name ≠ []) (ha : Param sec name a) (hb : Param sec name b) : a = b := by
  rw [param_iff _ _ _ hn] at ha hb
  rw [ha] at hb
  simpa using hb

theorem param_noParam {sec name a : Str} (hn : name ≠ []) (ha : Param sec name a) (hb : NoParam sec name) : False := by
  rw [param_iff _ _ _ hn] at ha
  rw [noParam_iff _ _ hn, ha] at hb
  cases hb

theorem wanted_fun {hs : Headers} {d : Nat} {sec : Str} {a b : Nat} (ha : Wanted hs d sec a) (hb : Wanted hs d sec b) :
    a = b := by
  have hn : "expires".toList ≠ [] := by decide
  rcases ha with ⟨e, h1, h2⟩ | ⟨h1, e, m, h2, h3⟩ | ⟨h1, h2, h3⟩ <;>
  rcases hb with ⟨e', k1, k2⟩ | ⟨k1, e', m', k2, k3⟩ | ⟨k1, k2, k3⟩
  · exact decimal_fun (param_fun hn h1 k1 ▸ h2) k2
  · exact (param_noParam hn h1 k1).elim
  · exact (param_noParam hn h1 k1).elim
  · exact (param_noParam hn k1 h1).elim
  · have := selects_unique h2 k2
    simp only [List.cons.injEq] at this
    exact decimal_fun (this.1 ▸ h3) k3
  · have := selects_unique h2 k2
    cases this
  · exact (param_noParam hn k1 h1).elim
  · have := selects_unique h2 k2
    cases this
  · rw [h3, k3]

theorem contactOf_fun {v uri uri' sec sec' : Str} (h : ContactOf v uri sec) (h' : ContactOf v uri' sec') :
    uri = uri' ∧ sec = sec' := by
  have e1 := contactOf_extract h
  rw [contactOf_extract h'] at e1
  simp only [Option.some.injEq] at e1
  refine ⟨e1.symm, ?_⟩
  obtain ⟨t, ht, _, hh⟩ := h
  obtain ⟨t', ht', _, hh'⟩ := h'
  have et : t = t' := by rw [(strips_trim _ _).mp ht, (strips_trim _ _).mp ht']
  subst et
  rcases hh with ⟨pre, u, h1, h2, h3, _⟩ | ⟨h0, u, h1, h2, h3, _⟩ <;>
  rcases hh' with ⟨pre', u', k1, k2, k3, _⟩ | ⟨k0, u', k1, k2, k3, _⟩
  · have a1 := (splitOnce_some_iff _ _ _ _).mpr ⟨h1, h2⟩
    rw [(splitOnce_some_iff _ _ _ _).mpr ⟨k1, k2⟩] at a1
    simp only [Option.some.injEq, Prod.mk.injEq] at a1
    have a2 := splitOnce_append '>' u sec h3
    rw [← a1.2, splitOnce_append '>' u' sec' k3] at a2
    simp only [Option.some.injEq, Prod.mk.injEq] at a2
    exact a2.2.symm
  · exact absurd (by rw [h1]; simp) k0
  · exact absurd (by rw [k1]; simp) h0
  · have key : ∀ (u sec : Str), t = u ++ sec → ';' ∉ u → (sec = [] ∨ sec.head? = some ';') →
        sec = match splitOnce ';' t with | some (_, r) => ';' :: r | none => [] := by
      intro u sec e1 e2 e3
      rcases e3 with e3 | e3
      · rw [e3, List.append_nil] at e1
        rw [e1, splitOnce_none _ _ e2, e3]
      · cases sec with
        | nil => simp at e3
        | cons c r =>
          simp only [List.head?_cons, Option.some.injEq] at e3
          subst e3
          rw [e1, splitOnce_append _ _ _ e2]
    rw [key u sec h1 h2 h3, ← key u' sec' k1 k2 k3]

theorem asks_fun {hs : Headers} {d : Nat} {v uri uri' : Str} {a b : Nat} (ha : Asks hs d v uri a) (hb : Asks hs d v uri' b) :
    uri = uri' ∧ a = b := by
  obtain ⟨s1, h1, h2⟩ := ha
  obtain ⟨s2, k1, k2⟩ := hb
  obtain ⟨e1, rfl⟩ := contactOf_fun h1 k1
  exact ⟨e1, wanted_fun h2 k2⟩

/-! ## CSeq -/

theorem parseCseq_iff (req : Request) (n : Nat) : parseCseq req = some n ↔
    ∃ v more, Selects "CSeq".toList req.headers.inner (v :: more) ∧ CSeqOf v n ∧ n ≤ 4294967295 := by
  unfold parseCseq
  constructor
  · intro h
    cases hg : req.headers.get "CSeq".toList with
    | none => rw [hg] at h; cases h
    | some v =>
      rw [hg] at h
      simp only at h
      obtain ⟨more, hm⟩ := Auth.selects_of_get hg
      refine ⟨v, more, hm, ?_⟩
      cases hw : splitWhitespace v with
      | nil => rw [hw] at h; cases h
      | cons num ws =>
        rw [hw] at h
        simp only at h
        cases hd : parseDec 4294967295 num with
        | none => rw [hd] at h; cases h
        | some m =>
          rw [hd] at h
          simp only at h
          cases ws with
          | nil =>
            have : eqIgnoreCase [] "REGISTER".toList = false := by decide
            rw [this] at h
            cases h
          | cons meth rest =>
            simp only at h
            split at h
            · rename_i he
              simp only [Option.some.injEq] at h
              subst h
              exact ⟨⟨num, meth, rest, (words_iff _ _).mpr hw, parseDec_some hd, (sameName_iff _ _).mpr he⟩,
                parseDec_le _ _ _ hd⟩
            · cases h
  · rintro ⟨v, more, h1, ⟨num, meth, rest, h2, h3, h4⟩, h5⟩
    rw [Auth.get_of_selects h1]
    simp only
    rw [(words_iff _ _).mp h2]
    simp only
    rw [parseDec_complete h3 h5]
    simp only
    rw [if_pos ((sameName_iff _ _).mp h4)]

/-! ## Addresses-of-record -/

theorem normalizeAor_form {u : Uri} {aor : Str} (h : normalizeAor u = some aor) :
    (∃ rest, aor = "sip".toList ++ ':' :: rest) ∨ (∃ rest, aor = "sips".toList ++ ':' :: rest) ∨
    ∃ rest, aor = "tel:".toList ++ rest := by
  cases u with
  | sip u =>
    simp only [normalizeAor, Option.some.injEq] at h
    unfold normalizeSip at h
    simp only at h
    cases hs : u.sips
    · left
      simp only [hs, Bool.false_eq_true, if_false] at h
      rw [← h]
      split
      · split <;> first | exact ⟨_, rfl⟩ | exact ⟨_, by rw [List.append_assoc]; rfl⟩
      · exact ⟨_, rfl⟩
    · right; left
      simp only [hs, if_true] at h
      rw [← h]
      split
      · split <;> first | exact ⟨_, rfl⟩ | exact ⟨_, by rw [List.append_assoc]; rfl⟩
      · exact ⟨_, rfl⟩
  | tel u =>
    simp only [normalizeAor, Option.some.injEq] at h
    right; right
    unfold normalizeTel at h
    simp only at h
    split at h
    · exact ⟨_, by rw [← h, List.append_assoc]⟩
    · exact ⟨_, by rw [← h, List.append_assoc, List.append_assoc]⟩
  | absolute s => cases h

theorem aorIdentity_userOf {u : Uri} {aor id : Str} (h : normalizeAor u = some aor) (hi : aorIdentity aor = some id) :
    UserOf aor id := by
  unfold aorIdentity at hi
  have sipLike : ∀ scheme : Str, (scheme = "sip".toList ∨ scheme = "sips".toList) → (∃ rest, aor = scheme ++ ':' :: rest) →
      UserOf aor id := by
    rintro scheme hs ⟨rest, rfl⟩
    have hc : ':' ∉ scheme := by rcases hs with rfl | rfl <;> decide
    have ht : eqIgnoreCase scheme "tel".toList = false := by rcases hs with rfl | rfl <;> decide
    rw [splitOnce_append _ _ _ hc] at hi
    simp only [ht, Bool.false_eq_true, if_false] at hi
    cases hr : splitOnce '@' rest with
    | none => rw [hr] at hi; cases hi
    | some x =>
      obtain ⟨a, b⟩ := x
      rw [hr] at hi
      simp only [Option.map_some, Option.some.injEq] at hi
      subst hi
      obtain ⟨e1, e2⟩ := (splitOnce_some_iff _ _ _ _).mp hr
      exact Or.inl ⟨scheme, b, hs, by rw [e1], e2⟩
  rcases normalizeAor_form h with h1 | h1 | ⟨rest, rfl⟩
  · exact sipLike _ (Or.inl rfl) h1
  · exact sipLike _ (Or.inr rfl) h1
  · have e : "tel:".toList ++ rest = "tel".toList ++ ':' :: rest := rfl
    have ht : eqIgnoreCase "tel".toList "tel".toList = true := by decide
    rw [e, splitOnce_append _ _ _ (by decide : ':' ∉ "tel".toList)] at hi
    simp only [ht, if_true] at hi
    right
    obtain ⟨j1, j2⟩ := join_splitChar ';' rest
    cases hsp : splitChar ';' rest with
    | nil => exact absurd hsp (splitChar_ne_nil _ _)
    | cons n ns =>
      rw [hsp] at hi j1 j2
      simp only at hi
      split at hi
      · cases hi
      · rename_i hne
        simp only [Option.some.injEq] at hi
        subst hi
        cases ns with
        | nil => exact ⟨[], by rw [← j1]; simp [join], by simpa using hne, j2 n (by simp), Or.inl rfl⟩
        | cons m ms =>
          exact ⟨';' :: join ';' (m :: ms), by rw [← j1]; rfl, by simpa using hne, j2 n (by simp), Or.inr rfl⟩

end Siphon.Registrar
