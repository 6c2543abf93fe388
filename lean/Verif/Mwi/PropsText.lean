import Verif.Mwi.Props
import Verif.Dialog.UacProps
import Verif.Reason.PropsText
set_option linter.unusedSimpArgs false
set_option linter.unusedVariables false
/-!
# C139: message summaries, their text, and the text read back
-/
namespace Siphon.Mwi
open TextSpec HdrSpec Spec

theorem ended_join (ls : List Str) : (ls.map (· ++ ['\n'])).flatten = join '\n' (ls ++ [[]]) := by
  induction ls with
  | nil => rfl
  | cons l ls ih =>
    rw [List.map_cons, List.flatten_cons, ih]
    cases ls with
    | nil => simp [join]
    | cons m ls => simp [join]

theorem entry_line (n v : Str) (hn : n ≠ []) (hc : ':' ∉ n) (h1 : Trimmed n) (h2 : Trimmed v) : Entry (n ++ ": ".toList ++ v) n v := by
  have key : Trimmed (n ++ [':']) := by
    constructor
    · intro c h
      cases n with
      | nil => exact absurd rfl hn
      | cons a n => exact h1.1 c h
    · intro c h
      rw [List.getLast?_append] at h
      cases h
      decide
  cases hv : v with
  | nil =>
    refine ⟨n, [], ⟨[], [' '], by simp, by simp, ?_, key⟩, hc, (Reason.strips_self n).2 h1, (Reason.strips_self []).2 trimmed_nil⟩
    intro c h
    simp at h
    subst h
    decide
  | cons a t =>
    refine ⟨n, ' ' :: v, ?_, hc, (Reason.strips_self n).2 h1, ?_⟩
    · rw [← hv]
      have e : n ++ ": ".toList ++ v = n ++ ':' :: ' ' :: v := by simp
      rw [e]
      refine (Reason.strips_self _).2 ⟨?_, ?_⟩
      · intro c h
        cases n with
        | nil => exact absurd rfl hn
        | cons a n => exact h1.1 c h
      · intro c h
        apply h2.2 c
        have : n ++ ':' :: ' ' :: v = (n ++ [':', ' ']) ++ v := by simp
        rw [this, List.getLast?_append] at h
        cases hl : v.getLast? with
        | none => rw [hv] at hl; simp at hl
        | some y => rw [hl] at h; exact h
    · rw [← hv]
      exact ⟨[' '], [], by simp, by simp; decide, by simp, h2⟩

/-- The numbers of a class as they are written. -/
def countsText (k : Counts) : Str :=
  showNat k.new ++ '/' :: showNat k.old ++
    (if k.urgentNew > 0 ∨ k.urgentOld > 0 then " (".toList ++ showNat k.urgentNew ++ '/' :: showNat k.urgentOld ++ ")".toList else [])

theorem slash_not_digit (n : Nat) : '/' ∉ showNat n := by
  intro h
  have := showNat_digits n _ h
  exact absurd this (by decide)

theorem pair_show (m n : Nat) (hm : m < 2 ^ 32) (hn : n < 2 ^ 32) : Pair (showNat m ++ '/' :: showNat n) m n := by
  refine ⟨showNat m, showNat n, ⟨by simp, by simp [join], ?_⟩, Dlg.decimal_showNat m, Dlg.decimal_showNat n, hm, hn⟩
  intro p hp
  simp only [List.mem_cons, List.not_mem_nil, or_false] at hp
  rcases hp with rfl | rfl <;> exact slash_not_digit _

theorem pair_chars (m n : Nat) : ∀ c ∈ showNat m ++ '/' :: showNat n, isWs c = false ∧ isAsciiControl c = false ∧ c ≠ '(' ∧ c ≠ ')' := by
  intro c hc
  rcases List.mem_append.1 hc with h | h
  · have := Reason.digits_plain m c h
    have hd := showNat_digits m c h
    exact ⟨this.2.2.2, this.1, fun e => by rw [e] at hd; exact absurd hd (by decide), fun e => by rw [e] at hd; exact absurd hd (by decide)⟩
  · rcases List.mem_cons.1 h with rfl | h
    · decide
    · have := Reason.digits_plain n c h
      have hd := showNat_digits n c h
      exact ⟨this.2.2.2, this.1, fun e => by rw [e] at hd; exact absurd hd (by decide), fun e => by rw [e] at hd; exact absurd hd (by decide)⟩

/-- Numbers of 32 bits. -/
def Small (k : Counts) : Prop := k.new < 2 ^ 32 ∧ k.old < 2 ^ 32 ∧ k.urgentNew < 2 ^ 32 ∧ k.urgentOld < 2 ^ 32

theorem countsText_read (k : Counts) (h : Small k) : CountsText (countsText k) k ∧ Trimmed (countsText k) ∧
    ∀ c ∈ countsText k, isAsciiControl c = false := by
  obtain ⟨n, o, un, uo⟩ := k
  obtain ⟨h1, h2, h3, h4⟩ := h
  simp only at h1 h2 h3 h4
  have pc := pair_chars n o
  have uc := pair_chars un uo
  have ne : showNat n ++ '/' :: showNat o ≠ [] := by simp
  by_cases hu : un > 0 ∨ uo > 0
  · have e : countsText ⟨n, o, un, uo⟩ = (showNat n ++ '/' :: showNat o) ++ ' ' :: ('(' :: (showNat un ++ '/' :: showNat uo) ++ [')']) := by
      unfold countsText
      simp only
      rw [if_pos hu]
      simp
    rw [e]
    refine ⟨?_, ?_, ?_⟩
    · have w2 : Words (' ' :: ('(' :: (showNat un ++ '/' :: showNat uo) ++ [')'])) ['(' :: (showNat un ++ '/' :: showNat uo) ++ [')']] := by
        have := @Words.cons [' '] ('(' :: (showNat un ++ '/' :: showNat uo) ++ [')']) [] [] (by simp; decide) (by simp)
          (by
            intro c hc
            rcases List.mem_append.1 hc with hc | hc
            · rcases List.mem_cons.1 hc with rfl | hc
              · decide
              · exact (uc c hc).1
            · simp at hc; subst hc; decide) (by simp) (.nil (by simp))
        simpa using this
      have w1 := @Words.cons [] (showNat n ++ '/' :: showNat o) _ _ (by simp) ne (fun c hc => (pc c hc).1) (by
        intro c hc
        cases hc
        decide) w2
      rw [List.nil_append] at w1
      refine .urgent w1 (pair_show n o h1 h2) ⟨['('], [')'], by simp, by simp, by simp, ?_, ?_⟩ (pair_show un uo h3 h4)
      · intro c hc
        have := uc c (List.mem_of_head? hc)
        simp [this.2.2.1, this.2.2.2]
      · intro c hc
        have := uc c (List.mem_of_getLast? hc)
        simp [this.2.2.1, this.2.2.2]
    · constructor
      · intro c hc
        cases hp : showNat n with
        | nil => exact absurd hp (showNat_ne_nil n)
        | cons a t =>
          rw [hp] at hc
          cases hc
          exact (pc c (by rw [hp]; simp)).1
      · intro c hc
        have e2 : (showNat n ++ '/' :: showNat o) ++ ' ' :: ('(' :: (showNat un ++ '/' :: showNat uo) ++ [')']) =
          ((showNat n ++ '/' :: showNat o) ++ ' ' :: '(' :: (showNat un ++ '/' :: showNat uo)) ++ [')'] := by simp
        rw [e2, List.getLast?_append] at hc
        cases hc
        decide
    · intro c hc
      rcases List.mem_append.1 hc with hc | hc
      · exact (pc c hc).2.1
      · rcases List.mem_cons.1 hc with rfl | hc
        · decide
        · rcases List.mem_append.1 hc with hc | hc
          · rcases List.mem_cons.1 hc with rfl | hc
            · decide
            · exact (uc c hc).2.1
          · simp at hc; subst hc; decide
  · have hz : un = 0 ∧ uo = 0 := by omega
    obtain ⟨rfl, rfl⟩ := hz
    have e : countsText ⟨n, o, 0, 0⟩ = showNat n ++ '/' :: showNat o := by
      unfold countsText
      simp
    rw [e]
    refine ⟨?_, trimmed_of_all _ (fun c hc => (pc c hc).1), fun c hc => (pc c hc).2.1⟩
    have w1 := @Words.cons [] (showNat n ++ '/' :: showNat o) [] [] (by simp) ne (fun c hc => (pc c hc).1) (by simp) (.nil (by simp))
    simp only [List.nil_append, List.append_nil] at w1
    exact .plain w1 (pair_show n o h1 h2)

theorem countsLine_eq (c : Class) (k : Counts) : countsLine c k = c.headerName ++ ": ".toList ++ countsText k := by
  unfold countsLine countsText
  simp

theorem className_eq (c : Class) : c.headerName = (className c).toList := by cases c <;> rfl
theorem fieldName_eq (f : Field) : f.headerName = (fieldName f).toList := by cases f <;> rfl

theorem sameName_self (s : Str) : SameName s s := (sameName_iff _ _).2 (by unfold eqIgnoreCase; simp)

/-- A value that can be read back. -/
def Value (max : Nat) (v : Str) : Prop := Good max v ∧ Trimmed v

theorem no_lf {s : Str} (h : ∀ c ∈ s, isAsciiControl c = false) : '\n' ∉ s := fun hc => absurd (h _ hc) (by decide)

theorem line_account (a : Str) (h : Value 512 a) : classify ("Message-Account: ".toList ++ a) = .account a := by
  rw [← says_iff]
  have e : "Message-Account: ".toList ++ a = "Message-Account".toList ++ ": ".toList ++ a := rfl
  rw [e]
  exact .account (entry_line _ a (by decide) (by decide) ⟨by intro c h; cases h; decide, by intro c h; cases h; decide⟩ h.2) (sameName_self _)

theorem line_counts (c : Class) (k : Counts) (h : Small k) : classify (countsLine c k) = .counts c k := by
  rw [← says_iff, countsLine_eq, className_eq]
  obtain ⟨h1, h2, _⟩ := countsText_read k h
  refine .counts (entry_line _ _ ?_ ?_ ?_ h2) (sameName_self _) h1
  · cases c <;> decide
  · cases c <;> decide
  · cases c <;> exact ⟨by intro c h; cases h; decide, by intro c h; cases h; decide⟩

theorem line_field (f : Field) (v : Str) (h : Value 1024 v) : classify (f.headerName ++ ": ".toList ++ v) = .field f v := by
  rw [← says_iff, fieldName_eq]
  refine .field (entry_line _ _ ?_ ?_ ?_ h.2) (sameName_self _)
  · cases f <;> decide
  · cases f <;> decide
  · cases f <;> exact ⟨by intro c h; cases h; decide, by intro c h; cases h; decide⟩

/-- What the written lines say. -/
def said (s : Summary) : List Line :=
  .status s.waiting :: (s.account.toList.map .account ++ (Class.all.filterMap (fun c => (s.messages.get c).map (.counts c)) ++
    s.headers.flatMap (fun h => Field.all.filterMap (fun f => (h.get f).map (.field f)))))

/-- A summary that can be read back: at most one message is described, and that by some field. -/
structure Safe (s : Summary) : Prop where
  account : ∀ a, s.account = some a → Value 512 a
  counts : ∀ c k, s.messages.get c = some k → Small k
  one : s.headers.length ≤ 1
  fields : ∀ h ∈ s.headers, (∃ f v, h.get f = some v) ∧ ∀ f v, h.get f = some v → Value 1024 v
  short : utf8Len s.show ≤ 102400

theorem lines_said (s : Summary) (h : Safe s) : s.lines.map classify = said s := by
  unfold Summary.lines said
  have e1 : classify ("Messages-Waiting: ".toList ++ (if s.waiting then "yes".toList else "no".toList)) = .status s.waiting := by
    cases s.waiting
    · exact (says_iff _ _).1 (.no (entry_line "Messages-Waiting".toList "no".toList (by decide) (by decide)
        ⟨by intro c h; cases h; decide, by intro c h; cases h; decide⟩ ⟨by intro c h; cases h; decide, by intro c h; cases h; decide⟩)
        (sameName_self _) (sameName_self _))
    · exact (says_iff _ _).1 (.yes (entry_line "Messages-Waiting".toList "yes".toList (by decide) (by decide)
        ⟨by intro c h; cases h; decide, by intro c h; cases h; decide⟩ ⟨by intro c h; cases h; decide, by intro c h; cases h; decide⟩)
        (sameName_self _) (sameName_self _))
  have e2 : (s.account.toList.map (fun a => "Message-Account: ".toList ++ a)).map classify = s.account.toList.map .account := by
    cases ha : s.account with
    | none => rfl
    | some a => simp only [List.map_cons, List.map_nil, Option.toList_some]; rw [line_account a (h.account a ha)]
  have e3 : (Class.all.filterMap (fun c => (s.messages.get c).map (countsLine c))).map classify =
      Class.all.filterMap (fun c => (s.messages.get c).map (.counts c)) := by
    rw [List.map_filterMap]
    congr 1
    funext c
    cases hc : s.messages.get c with
    | none => rfl
    | some k => simp only [Option.map_some]; rw [line_counts c k (h.counts c k hc)]
  have e4 : (s.headers.flatMap (fun h => Field.all.filterMap (fun f => (h.get f).map (fun v => f.headerName ++ ": ".toList ++ v)))).map classify =
      s.headers.flatMap (fun h => Field.all.filterMap (fun f => (h.get f).map (.field f))) := by
    rw [List.map_flatMap]
    have hf := h.fields
    revert hf
    generalize s.headers = hs
    intro hf
    induction hs with
    | nil => rfl
    | cons x hs ih =>
      simp only [List.flatMap_cons]
      rw [ih (fun y hy => hf y (by simp [hy]))]
      congr 1
      rw [List.map_filterMap]
      congr 1
      funext f
      cases hg : x.get f with
      | none => rfl
      | some v => simp only [Option.map_some]; rw [line_field f v ((hf x (by simp)).2 f v hg)]
  rw [List.map_append, List.map_append, List.map_append, e2, e3, e4, List.map_cons, List.map_nil, e1]
  simp

theorem lines_no_lf (s : Summary) (h : Safe s) : ∀ l ∈ s.lines, '\n' ∉ l := by
  have nn : ∀ c : Class, '\n' ∉ c.headerName := by intro c; cases c <;> decide
  have fn : ∀ f : Field, '\n' ∉ f.headerName := by intro f; cases f <;> decide
  have cs : '\n' ∉ ": ".toList := by decide
  intro l hl
  unfold Summary.lines at hl
  simp only [List.mem_append, List.mem_cons, List.not_mem_nil, or_false, List.mem_filterMap, Option.map_eq_some_iff, List.mem_flatMap,
    List.mem_map, Option.mem_toList] at hl
  rcases hl with ((rfl | ⟨a, ha, rfl⟩) | ⟨c, _, k, hk, rfl⟩) | ⟨x, hx, f, _, v, hv, rfl⟩
  · cases s.waiting <;> decide
  · rw [List.mem_append]
    rintro (h' | h')
    · exact absurd h' (by decide)
    · exact no_lf (h.account a ha).1.2 h'
  · rw [countsLine_eq]
    simp only [List.mem_append, not_or]
    exact ⟨⟨nn c, cs⟩, no_lf (countsText_read k (h.counts c k hk)).2.2⟩
  · simp only [List.mem_append, not_or]
    exact ⟨⟨fn f, cs⟩, no_lf ((h.fields x hx).2 f v hv).1.2⟩

theorem pickClass (m : Class → Option Counts) (d : Class) : (Class.all.filterMap (fun c => if c = d then m c else none)) = (m d).toList := by
  cases d <;> simp [Class.all, List.filterMap_cons] <;> (split <;> simp_all)

theorem pickField (m : Field → Option Str) (d : Field) : (Field.all.filterMap (fun c => if c = d then m c else none)) = (m d).toList := by
  cases d <;> simp [Field.all, List.filterMap_cons] <;> (split <;> simp_all)

theorem filterMap_none {α β : Type} (l : List α) : l.filterMap (fun _ => (none : Option β)) = [] := by
  induction l with
  | nil => rfl
  | cons _ _ ih => simpa using ih

theorem groups_end (g : List Line) (h : Line.blank ∉ g) : groups (g ++ [.blank]) = [g, []] := by
  induction g with
  | nil => rfl
  | cons x g ih =>
    simp only [List.mem_cons, not_or] at h
    obtain ⟨a, b, h1, h2⟩ := groups_cons x (g ++ [.blank]) (fun e => h.1 e.symm)
    rw [ih h.2] at h1
    cases h1
    exact h2

theorem toList_getLast {α : Type} (o : Option α) : o.toList.getLast? = o := by cases o <;> rfl

/-- **C139 (partial).** A summary with numbers of 32 bits and at most one described message is read back from its text.  Missing: more than one
described message (`C139_two_headers`). -/
theorem C139_roundtrip_partial (s : Summary) (h : Safe s) : parse s.show = some s := by
  rw [C139_parse]
  refine ⟨h.short, s.lines ++ [[]], said s ++ [.blank], ⟨by simp, ended_join _, ?_⟩, ?_, ?_⟩
  · intro p hp
    rcases List.mem_append.1 hp with hp | hp
    · exact lines_no_lf s h p hp
    · simp at hp; subst hp; simp
  · rw [sayAll_iff, List.map_append, lines_said s h]
    rfl
  · have hblank : Line.blank ∉ said s ∧ Line.wrong ∉ said s := by
      unfold said
      constructor <;> simp [List.mem_filterMap, List.mem_flatMap]
    have hst : statuses (said s ++ [.blank]) = [s.waiting] := by
      unfold said statuses
      simp [List.filterMap_cons, List.filterMap_append, List.filterMap_map, List.filterMap_filterMap, List.filterMap_flatMap,
        Function.comp_def, filterMap_none, Option.bind_map]
    have hac : accounts (said s ++ [.blank]) = s.account.toList := by
      unfold said accounts
      simp [List.filterMap_cons, List.filterMap_append, List.filterMap_map, List.filterMap_filterMap, List.filterMap_flatMap,
        Function.comp_def, filterMap_none, Option.bind_map]
    have hco : ∀ d, countsOf d (said s ++ [.blank]) = (s.messages.get d).toList := by
      intro d
      unfold said countsOf
      rw [← pickClass s.messages.get d]
      simp [List.filterMap_cons, List.filterMap_append, List.filterMap_map, List.filterMap_filterMap, List.filterMap_flatMap,
        Function.comp_def, filterMap_none, Option.bind_map]
      rw [show s.headers.flatMap (fun _ => ([] : List Counts)) = [] by simp, List.append_nil]
      congr 1
      funext c
      by_cases hc : c = d
      · simp [hc]
      · simp [hc]
    have hva : ∀ f, valuesOf f (said s) = s.headers.flatMap (fun h => (h.get f).toList) := by
      intro d
      unfold said valuesOf
      simp only [← pickField]
      simp [List.filterMap_cons, List.filterMap_append, List.filterMap_map, List.filterMap_filterMap, List.filterMap_flatMap,
        Function.comp_def, filterMap_none, Option.bind_map]
      congr 1
      funext h
      congr 1
      funext c
      by_cases hc : c = d
      · simp [hc]
      · simp [hc]
    have hmem : ∀ f v, (f, v) ∈ fieldsOf (said s) ↔ ∃ h ∈ s.headers, h.get f = some v := by
      have hall : ∀ f, f ∈ Field.all := by intro f; cases f <;> decide
      intro f v
      unfold fieldsOf said
      simp [List.filterMap_cons, List.filterMap_append, List.filterMap_map, List.filterMap_filterMap, List.filterMap_flatMap,
        Function.comp_def, filterMap_none, Option.bind_map, hall]
      constructor
      · rintro ⟨a, ha, g, hg⟩
        cases hx : a.get g with
        | none => rw [hx] at hg; cases hg
        | some w => rw [hx] at hg; cases hg; exact ⟨a, ha, hx⟩
      · rintro ⟨a, ha, hg⟩
        exact ⟨a, ha, f, by rw [hg]; rfl⟩
    have hfe : fieldsOf (said s ++ [.blank]) = fieldsOf (said s) := by
      unfold fieldsOf; simp [List.filterMap_append]
    have hhd : s.headers = (groups (said s ++ [.blank])).filterMap headerOf := by
      rw [groups_end _ hblank.1]
      have e0 : headerOf [] = none := rfl
      have hone := h.one
      have hfs := h.fields
      cases hh : s.headers with
      | nil =>
        have : fieldsOf (said s) = [] := by
          cases hf : fieldsOf (said s) with
          | nil => rfl
          | cons x t =>
            obtain ⟨y, hy, _⟩ := (hmem x.1 x.2).1 (by rw [hf]; simp)
            rw [hh] at hy
            cases hy
        have e1 : headerOf (said s) = none := by unfold headerOf; rw [this]; rfl
        simp [List.filterMap_cons, e0, e1]
      | cons x t =>
        have ht : t = [] := by
          rw [hh] at hone
          simp only [List.length_cons] at hone
          exact List.length_eq_zero_iff.1 (by omega)
        subst ht
        obtain ⟨f, v, hfv⟩ := (hfs x (by rw [hh]; simp)).1
        have hne : (fieldsOf (said s)).isEmpty = false := by
          have := (hmem f v).2 ⟨x, by rw [hh]; simp, hfv⟩
          cases hf : fieldsOf (said s) with
          | nil => rw [hf] at this; cases this
          | cons _ _ => rfl
        have e1 : headerOf (said s) = some x := by
          unfold headerOf
          rw [hne]
          simp only [Bool.false_eq_true, if_false, hva, hh, List.flatMap_cons, List.flatMap_nil, List.append_nil, toList_getLast]
          rfl
        simp [List.filterMap_cons, e0, e1]
    refine ⟨?_, ?_, ?_, ?_, ?_, ?_, hhd, ?_⟩
    · simp [hblank.2]
    · intro a ha
      rw [hac, Option.mem_toList] at ha
      exact (h.account a ha).1
    · rintro ⟨f, v⟩ hx
      rw [hfe, hmem] at hx
      obtain ⟨x, hx, hv⟩ := hx
      exact ((h.fields x hx).2 f v hv).1
    · rw [hst]; rfl
    · rw [hac, toList_getLast]
    · intro c; rw [hco, toList_getLast]
    · have := h.one; omega

/-! ## Sums -/

theorem sumU32_iff (l : List Nat) (acc n : Nat) (ha : acc < 2 ^ 32) : sumU32 l acc = some n ↔ n = acc + l.sum ∧ n < 2 ^ 32 := by
  induction l generalizing acc with
  | nil =>
    simp only [sumU32, List.sum_nil, Nat.add_zero, Option.some.injEq]
    constructor
    · rintro rfl; exact ⟨rfl, ha⟩
    · rintro ⟨rfl, _⟩; rfl
  | cons x l ih =>
    rw [sumU32, List.sum_cons]
    by_cases h : acc + x < 2 ^ 32
    · rw [if_pos h, ih _ h, Nat.add_assoc]
    · rw [if_neg h]
      refine ⟨nofun, fun ⟨h1, h2⟩ => ?_⟩
      omega

/-- The number of messages of each class, or zero. -/
def each (s : Summary) (f : Counts → Nat) : List Nat :=
  [s.messages.voice, s.messages.fax, s.messages.pager, s.messages.multimedia, s.messages.text, s.messages.none].map
    (fun o => match o with | some k => f k | none => 0)

theorem each_sum (s : Summary) (f : Counts → Nat) : (s.messages.values.map f).sum = (each s f).sum := by
  obtain ⟨w, a, ⟨m1, m2, m3, m4, m5, m6⟩, hs⟩ := s
  unfold each Messages.values Class.all
  simp only [List.filterMap_cons, List.filterMap_nil, Messages.get]
  cases m1 <;> cases m2 <;> cases m3 <;> cases m4 <;> cases m5 <;> cases m6 <;> simp

/-- **C139.** The totals are the sums over the classes, if these fit 32 bits; and there are urgent messages exactly if some class has
some. -/
theorem C139_totals (s : Summary) :
    (∀ n, s.totalNew = some n ↔ n = (each s (·.new)).sum ∧ n < 2 ^ 32) ∧ (∀ n, s.totalOld = some n ↔ n = (each s (·.old)).sum ∧ n < 2 ^ 32) ∧
    (s.hasUrgent = true ↔ ∃ c k, s.messages.get c = some k ∧ (0 < k.urgentNew ∨ 0 < k.urgentOld)) := by
  refine ⟨fun n => ?_, fun n => ?_, ?_⟩
  · unfold Summary.totalNew
    rw [sumU32_iff _ _ _ (by decide), each_sum, Nat.zero_add]
  · unfold Summary.totalOld
    rw [sumU32_iff _ _ _ (by decide), each_sum, Nat.zero_add]
  · unfold Summary.hasUrgent Messages.values
    have hall : ∀ c, c ∈ Class.all := by intro c; cases c <;> decide
    simp only [List.any_eq_true, List.mem_filterMap, hall, true_and, Counts.hasUrgent, Bool.or_eq_true, decide_eq_true_eq, gt_iff_lt]
    constructor
    · rintro ⟨k, ⟨c, hc⟩, h⟩; exact ⟨c, k, hc, h⟩
    · rintro ⟨c, k, hc, h⟩; exact ⟨k, ⟨c, hc⟩, h⟩

/-- **C139, as the code is.** The total of two classes can exceed 32 bits: asking for it panics or gives a wrong number. -/
theorem C139_overflow : ∃ s, parse "Messages-Waiting: yes\r\nVoice-Message: 4294967295/0\r\nFax-Message: 1/0\r\n".toList = some s ∧ s.totalNew = none :=
  ⟨{ waiting := true, messages := { voice := some ⟨4294967295, 0, 0, 0⟩, fax := some ⟨1, 0, 0, 0⟩ } }, by decide +kernel, by decide +kernel⟩

/-- **C139, as the code is.** Two described messages are written without a blank line between them and are read as one. -/
theorem C139_two_headers : ∃ s s' : Summary, s.headers.length = 2 ∧ parse s.show = some s' ∧ s'.headers.length = 1 :=
  ⟨{ waiting := true, headers := [{ «to» := some "a".toList, subject := some "x".toList }, { «to» := some "b".toList }] },
   { waiting := true, headers := [{ «to» := some "b".toList, subject := some "x".toList }] }, rfl, by decide +kernel, rfl⟩

/-- A body as a voice mail system sends it. -/
example : parse "Messages-Waiting: yes\r\nMessage-Account: sip:alice@vmail.example.com\r\nVoice-Message: 2/8 (0/2)\r\n\r\nTo: a\r\nSubject: s\r\n\r\nTo: b\r\n".toList =
    some { waiting := true, account := some "sip:alice@vmail.example.com".toList, messages := { voice := some ⟨2, 8, 0, 2⟩ },
           headers := [{ «to» := some "a".toList, subject := some "s".toList }, { «to» := some "b".toList }] } := by decide +kernel

/-- Without a status, or with another word for it, a body is refused; unreadable numbers are passed over. -/
example : parse "Voice-Message: 2/8".toList = none ∧ parse "Messages-Waiting: maybe".toList = none ∧
    parse "messages-waiting : NO\nVoice-Message: many\nFoo: bar".toList = some { waiting := false } := by decide +kernel

/-- A summary that is safe. -/
example : Safe { waiting := true, account := some "sip:a@b".toList, messages := { voice := some ⟨2, 8, 0, 2⟩ }, headers := [{ «to» := some "a".toList }] } where
  account := by
    intro a ha
    cases ha
    exact ⟨⟨by decide, by decide⟩, ⟨by intro c h; cases h; decide, by intro c h; cases h; decide⟩⟩
  counts := by
    intro c k hk
    cases c <;> cases hk
    exact ⟨by decide, by decide, by decide, by decide⟩
  one := by decide
  fields := by
    intro h hh
    simp only [List.mem_cons, List.not_mem_nil, or_false] at hh
    subst hh
    refine ⟨⟨.to, _, rfl⟩, ?_⟩
    intro f v hv
    cases f <;> cases hv
    exact ⟨⟨by decide, by decide⟩, ⟨by intro c h; cases h; decide, by intro c h; cases h; decide⟩⟩
  short := by decide +kernel

end Siphon.Mwi
