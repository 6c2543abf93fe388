import Verif.Auth.Spec
import Verif.Core.HeadersProps
import Verif.Base.Strip
/-! Lemmas about the text level: splitting, trimming, parameters, hexadecimal numbers. -/
set_option linter.unusedSimpArgs false
namespace Siphon.Auth
open Spec

/-! ## Stripping -/

theorem trimMatches_eq_strip (c : Char) (s : Str) : trimMatches c s = stripBoth (· == c) s := rfl

theorem stripBoth_dropWhile (P : Char → Bool) (s : Str) : stripBoth P (s.dropWhile P) = stripBoth P s := by
  unfold stripBoth
  rw [dropWhile_of_head (s.dropWhile P) (fun c hc => dropWhile_head s c hc)]

theorem strips_trimStart (s : Str) : trim (trimStart s) = trim s := stripBoth_dropWhile isWs s

theorem strips_trimEnd (s : Str) : trim (trimEnd s) = trim s := by
  obtain ⟨b, hb, hb'⟩ := dropWhile_split (P := isWs) s.reverse
  have hs : s = trimEnd s ++ b.reverse := by
    have := congrArg List.reverse hb
    simpa [trimEnd] using this
  obtain ⟨a', b', h1, h2, h3, h4, h5⟩ := strips_stripBoth isWs (trimEnd s)
  have : Strips isWs s (stripBoth isWs (trimEnd s)) := by
    refine ⟨a', b' ++ b.reverse, ?_, h2, ?_, h4, h5⟩
    · conv => lhs; rw [hs, h1]
      simp
    · intro c hc
      simp only [List.mem_append, List.mem_reverse] at hc
      rcases hc with hc | hc
      · exact h3 c hc
      · exact hb' c hc
  exact strips_unique this

/-! ## Splitting at commas -/

/-- The two flags of the loop as a reader state. -/
def qOf : Bool → Bool → Q
  | false, _ => .outside
  | true, false => .inside
  | true, true => .escaped

def flagsOf : Q → Bool × Bool
  | .outside => (false, false)
  | .inside => (true, false)
  | .escaped => (true, true)

def splitS (maxParts : Nat) (s cur : Str) (q : Q) (parts : List Str) : Option (List Str) :=
  splitQ maxParts s cur (flagsOf q).1 (flagsOf q).2 parts

theorem splitS_cons (maxParts : Nat) (c : Char) (s cur : Str) (q : Q) (parts : List Str)
    (h : ¬ (c = ',' ∧ q = .outside)) :
    splitS maxParts (c :: s) cur q parts = splitS maxParts s (cur ++ [c]) (q.next c) parts := by
  unfold splitS
  cases q with
  | outside =>
    simp only [flagsOf, splitQ, Q.next]
    by_cases h1 : c = '"'
    · simp [h1, flagsOf]
    · have h2 : c ≠ ',' := fun e => h ⟨e, rfl⟩
      simp [h1, h2, flagsOf]
  | inside =>
    simp only [flagsOf, splitQ, Q.next]
    by_cases h1 : c = '"'
    · simp [h1, flagsOf]
    · by_cases h2 : c = '\\'
      · simp [h1, h2, flagsOf]
      · simp [h1, h2, flagsOf]
  | escaped =>
    simp [flagsOf, splitQ, Q.next]

theorem splitS_comma (maxParts : Nat) (s cur : Str) (parts : List Str) :
    splitS maxParts (',' :: s) cur .outside parts =
      if (trim cur).isEmpty then splitS maxParts s [] .outside parts
      else if parts.length ≥ maxParts then none
      else splitS maxParts s [] .outside (parts ++ [trim cur]) := by
  unfold splitS
  simp only [flagsOf, splitQ]
  by_cases h : (trim cur).isEmpty = true
  · simp [h]
  · simp [h]

theorem splitS_nil (maxParts : Nat) (cur : Str) (q : Q) (parts : List Str) :
    splitS maxParts [] cur q parts =
      if q ≠ .outside then none
      else if (trim cur).isEmpty then some parts
      else if parts.length ≥ maxParts then none else some (parts ++ [trim cur]) := by
  unfold splitS
  cases q <;> simp only [flagsOf, splitQ] <;> by_cases h : (trim cur).isEmpty = true <;> simp [h]

/-- no comma of `a` is met outside quotes when reading starts in state `q` -/
def NoSep (q : Q) (a : Str) : Prop := ∀ x y, a = x ++ ',' :: y → x.foldl Q.next q ≠ .outside

theorem NoSep_cons {q : Q} {c : Char} {a : Str} (h : NoSep q (c :: a)) :
    ¬ (c = ',' ∧ q = .outside) ∧ NoSep (q.next c) a := by
  refine ⟨?_, ?_⟩
  · rintro ⟨rfl, hq⟩; exact h [] a rfl (by simpa using hq)
  · intro x y hxy; exact h (c :: x) y (by simp [hxy])

theorem NoSep_cons' {q : Q} {c : Char} {a : Str} (h1 : ¬ (c = ',' ∧ q = .outside))
    (h2 : NoSep (q.next c) a) : NoSep q (c :: a) := by
  intro x y hxy
  cases x with
  | nil =>
    simp only [List.nil_append, List.cons.injEq] at hxy
    intro hq; exact h1 ⟨hxy.1, by simpa using hq⟩
  | cons d x =>
    simp only [List.cons_append, List.cons.injEq] at hxy
    obtain ⟨rfl, hxy⟩ := hxy
    exact h2 x y hxy

theorem splitS_append (maxParts : Nat) : ∀ (a s cur : Str) (q : Q) (parts : List Str), NoSep q a →
    splitS maxParts (a ++ s) cur q parts = splitS maxParts s (cur ++ a) (a.foldl Q.next q) parts
  | [], s, cur, q, parts, _ => by simp
  | c :: a, s, cur, q, parts, h => by
    have := NoSep_cons h
    rw [List.cons_append, splitS_cons _ _ _ _ _ _ this.1, splitS_append maxParts a s _ _ _ this.2]
    simp

theorem element_iff (p : Str) : Element p ↔ quoteState p = .outside ∧ NoSep .outside p := Iff.rfl

/-- the non-blank elements, trimmed -/
def pieces (ps : List Str) : List Str := (ps.map trim).filter (fun t => !t.isEmpty)

theorem pieces_cons (p : Str) (ps : List Str) :
    pieces (p :: ps) = if (trim p).isEmpty then pieces ps else trim p :: pieces ps := by
  unfold pieces
  by_cases h : (trim p).isEmpty = true <;> simp [h]

theorem splitS_join (maxParts : Nat) : ∀ (ps parts : List Str), (∀ p ∈ ps, Element p) →
    parts.length ≤ maxParts →
    splitS maxParts (joinCommas ps) [] .outside parts =
      if (parts ++ pieces ps).length ≤ maxParts then some (parts ++ pieces ps) else none
  | [], parts, _, hl => by
    simp [joinCommas, splitS_nil, pieces, trim, trimStart, trimEnd, hl]
  | [p], parts, h, hl => by
    have hp := (element_iff p).mp (h p (by simp))
    have := splitS_append maxParts p [] [] .outside parts hp.2
    simp only [List.append_nil, List.nil_append] at this
    rw [joinCommas, this, show p.foldl Q.next .outside = .outside from hp.1, splitS_nil, pieces_cons]
    simp only [ne_eq, not_true_eq_false, if_false]
    by_cases hb : (trim p).isEmpty = true
    · simp [hb, pieces, hl]
    · simp only [hb, Bool.false_eq_true, if_false, pieces, List.map_nil, List.filter_nil,
        List.length_append, List.length_singleton, List.length_cons, List.length_nil]
      by_cases hm : parts.length ≥ maxParts
      · rw [if_pos hm, if_neg (by omega)]
      · rw [if_neg hm, if_pos (by omega)]
  | p :: p' :: ps, parts, h, hl => by
    have hp := (element_iff p).mp (h p (by simp))
    have := splitS_append maxParts p (',' :: joinCommas (p' :: ps)) [] .outside parts hp.2
    simp only [List.nil_append] at this
    rw [joinCommas, this, show p.foldl Q.next .outside = .outside from hp.1, splitS_comma,
      pieces_cons p]
    · have hrest : ∀ q ∈ p' :: ps, Element q := fun q hq => h q (by simp [List.mem_cons.mp hq])
      by_cases hb : (trim p).isEmpty = true
      · rw [if_pos hb, if_pos hb, splitS_join maxParts (p' :: ps) parts hrest hl]
      · rw [if_neg hb, if_neg hb]
        by_cases hm : parts.length ≥ maxParts
        · rw [if_pos hm, if_neg]
          simp only [List.length_append, List.length_cons]; omega
        · rw [if_neg hm, splitS_join maxParts (p' :: ps) (parts ++ [trim p]) hrest (by
            simp only [List.length_append, List.length_singleton]; omega)]
          simp only [List.append_assoc, List.singleton_append]
    · simp

theorem joinCommas_cons (p : Str) (ps : List Str) (h : ps ≠ []) :
    joinCommas (p :: ps) = p ++ ',' :: joinCommas ps := by
  cases ps with
  | nil => exact absurd rfl h
  | cons a as => rfl

/-- Whatever the splitter accepts is a list of elements. -/
theorem splitS_some (maxParts : Nat) : ∀ (s cur : Str) (q : Q) (parts out : List Str),
    splitS maxParts s cur q parts = some out →
    ∃ p ps, s = joinCommas (p :: ps) ∧ NoSep q p ∧ p.foldl Q.next q = .outside ∧
      ∀ p' ∈ ps, Element p'
  | [], cur, q, parts, out, h => by
    rw [splitS_nil] at h
    split at h
    · cases h
    · rename_i hq
      refine ⟨[], [], rfl, ?_, by simpa using hq, by simp⟩
      intro x y hxy; simp at hxy
  | c :: s, cur, q, parts, out, h => by
    by_cases hc : c = ',' ∧ q = .outside
    · obtain ⟨rfl, rfl⟩ := hc
      rw [splitS_comma] at h
      have key : ∃ cur' parts', splitS maxParts s cur' .outside parts' = some out := by
        split at h
        · exact ⟨_, _, h⟩
        · split at h
          · cases h
          · exact ⟨_, _, h⟩
      obtain ⟨cur', parts', h'⟩ := key
      obtain ⟨p, ps, h1, h2, h3, h4⟩ := splitS_some maxParts s cur' .outside parts' out h'
      refine ⟨[], p :: ps, by rw [joinCommas_cons _ _ (by simp), ← h1]; rfl, ?_, rfl, ?_⟩
      · intro x y hxy; simp at hxy
      · intro p' hp'
        rcases List.mem_cons.mp hp' with rfl | hp'
        · exact ⟨h3, h2⟩
        · exact h4 p' hp'
    · rw [splitS_cons _ _ _ _ _ _ hc] at h
      obtain ⟨p, ps, h1, h2, h3, h4⟩ := splitS_some maxParts s _ _ parts out h
      refine ⟨c :: p, ps, ?_, NoSep_cons' hc h2, by simpa using h3, h4⟩
      rw [h1]
      cases ps <;> rfl

theorem splitQuotedCommas_some {s : Str} {maxParts : Nat} {out : List Str}
    (h : splitQuotedCommas s maxParts = some out) :
    ∃ ps, ps ≠ [] ∧ s = joinCommas ps ∧ (∀ p ∈ ps, Element p) ∧ out = pieces ps := by
  have h' : splitS maxParts s [] .outside [] = some out := h
  obtain ⟨p, ps, h1, h2, h3, h4⟩ := splitS_some maxParts s [] .outside [] out h'
  have hel : ∀ q ∈ p :: ps, Element q := by
    intro q hq
    rcases List.mem_cons.mp hq with rfl | hq
    · exact ⟨h3, h2⟩
    · exact h4 q hq
  refine ⟨p :: ps, by simp, h1, hel, ?_⟩
  rw [h1, splitS_join maxParts (p :: ps) [] hel (Nat.zero_le _)] at h'
  split at h'
  · simpa using h'.symm
  · cases h'

/-- Elements determine the list: two ways of cutting the same text agree. -/
theorem pieces_unique {ps qs : List Str} (hp : ∀ p ∈ ps, Element p) (hq : ∀ p ∈ qs, Element p)
    (h : joinCommas ps = joinCommas qs) : pieces ps = pieces qs := by
  have h1 := splitS_join (pieces ps ++ pieces qs).length ps [] hp (Nat.zero_le _)
  have h2 := splitS_join (pieces ps ++ pieces qs).length qs [] hq (Nat.zero_le _)
  rw [h, h2, if_pos (by simp), if_pos (by simp)] at h1
  simpa using h1.symm

/-! ## `name=value` -/

theorem splitOnce_some_iff (c : Char) (s a b : Str) :
    splitOnce c s = some (a, b) ↔ s = a ++ c :: b ∧ c ∉ a := by
  constructor
  · intro h
    induction s generalizing a b with
    | nil => simp [splitOnce] at h
    | cons x xs ih =>
      simp only [splitOnce] at h
      split at h
      · rename_i hx
        simp only [Option.some.injEq, Prod.mk.injEq] at h
        obtain ⟨rfl, rfl⟩ := h
        simp [hx]
      · rename_i hx
        simp only [Option.map_eq_some_iff] at h
        obtain ⟨⟨a', b'⟩, h1, h2⟩ := h
        simp only [Prod.mk.injEq] at h2
        obtain ⟨rfl, rfl⟩ := h2
        have := ih a' b' h1
        exact ⟨by simp [this.1], by simp [this.2, Ne.symm hx]⟩
  · rintro ⟨rfl, h⟩; exact splitOnce_append c a b h

theorem isWs_eq : isWs '=' = false := by decide

/-- trimming `n = v` trims the outer ends -/
theorem trim_eqn (n v : Str) : trim (n ++ '=' :: v) = trimStart n ++ '=' :: trimEnd v := by
  unfold trim trimStart
  have h1 : (n ++ '=' :: v).dropWhile isWs = n.dropWhile isWs ++ '=' :: v := by
    induction n with
    | nil => simp [List.dropWhile, isWs_eq]
    | cons x xs ih =>
      simp only [List.cons_append, List.dropWhile]
      split
      · exact ih
      · simp
  rw [h1]
  unfold trimEnd
  have h2 : ∀ w : Str, (w.reverse ++ ('=' :: (n.dropWhile isWs).reverse)).dropWhile isWs
      = w.reverse.dropWhile isWs ++ ('=' :: (n.dropWhile isWs).reverse) := by
    intro w
    generalize w.reverse = u
    induction u with
    | nil => simp [List.dropWhile, isWs_eq]
    | cons x xs ih =>
      simp only [List.cons_append, List.dropWhile]
      split
      · exact ih
      · simp
  have h3 : (n.dropWhile isWs ++ '=' :: v).reverse = v.reverse ++ '=' :: (n.dropWhile isWs).reverse := by
    simp
  rw [h3, h2 v]
  simp

theorem says_iff (p name value : Str) : Says p name value ↔
    ∃ n v, splitOnce '=' p = some (n, v) ∧ name = lower (trim n) ∧ value = trimMatches '"' (trim v) := by
  unfold Says
  constructor
  · rintro ⟨n, v, n', v', h1, h2, h3, h4, h5, h6⟩
    refine ⟨n, v, (splitOnce_some_iff _ _ _ _).mpr ⟨h1, h2⟩, ?_, ?_⟩
    · rw [h4, (strips_trim _ _).mp h3]; rfl
    · rw [strips_unique h6, (strips_trim _ _).mp h5]; rfl
  · rintro ⟨n, v, h1, h2, h3⟩
    have := (splitOnce_some_iff _ _ _ _).mp h1
    refine ⟨n, v, trim n, trim v, this.1, this.2, strips_stripBoth _ _, h2, strips_stripBoth _ _, ?_⟩
    rw [h3]; exact strips_stripBoth _ _

theorem mem_dropWhile_sub {P : Char → Bool} {s : Str} {c : Char} (h : c ∈ s.dropWhile P) : c ∈ s := by
  obtain ⟨a, ha, _⟩ := dropWhile_split (P := P) s
  rw [ha]; simp [h]

theorem says_trim (p name value : Str) : Says (trim p) name value ↔ Says p name value := by
  rw [says_iff, says_iff]
  cases hp : splitOnce '=' p with
  | none =>
    constructor
    · rintro ⟨n, v, h, _⟩
      have h' := (splitOnce_some_iff _ _ _ _).mp h
      have hmem : '=' ∈ trim p := by rw [h'.1]; simp
      have : '=' ∈ p := by
        obtain ⟨a, b, hab, _⟩ := strips_stripBoth isWs p
        rw [hab]
        simp only [List.mem_append]
        exact Or.inl (Or.inr hmem)
      exfalso
      obtain ⟨x, y, hxy⟩ := List.append_of_mem this
      have hex : ∃ x y, p = x ++ '=' :: y ∧ '=' ∉ x := by
        clear h h' hmem hp hxy x y
        induction p with
        | nil => simp at this
        | cons c cs ih =>
          by_cases hc : c = '='
          · exact ⟨[], cs, by simp [hc], by simp⟩
          · have : '=' ∈ cs := by
              rcases List.mem_cons.mp this with h | h
              · exact absurd h.symm hc
              · exact h
            obtain ⟨x, y, h1, h2⟩ := ih this
            exact ⟨c :: x, y, by simp [h1], by simp [h2, Ne.symm hc]⟩
      obtain ⟨x, y, h1, h2⟩ := hex
      rw [h1, splitOnce_append _ _ _ h2] at hp
      cases hp
    · rintro ⟨n, v, h, _⟩; cases h
  | some q =>
    obtain ⟨n, v⟩ := q
    have h' := (splitOnce_some_iff _ _ _ _).mp hp
    have ht : splitOnce '=' (trim p) = some (trimStart n, trimEnd v) := by
      rw [splitOnce_some_iff]
      refine ⟨by rw [h'.1, trim_eqn], fun hm => h'.2 (mem_dropWhile_sub hm)⟩
    rw [ht]
    constructor
    · rintro ⟨n2, v2, h, h2, h3⟩
      simp only [Option.some.injEq, Prod.mk.injEq] at h
      obtain ⟨rfl, rfl⟩ := h
      exact ⟨n, v, rfl, by rw [h2, strips_trimStart], by rw [h3, strips_trimEnd]⟩
    · rintro ⟨n2, v2, h, h2, h3⟩
      simp only [Option.some.injEq, Prod.mk.injEq] at h
      obtain ⟨rfl, rfl⟩ := h
      exact ⟨_, _, rfl, by rw [h2, strips_trimStart], by rw [h3, strips_trimEnd]⟩

theorem says_nonblank {p name value : Str} (h : Says p name value) : (trim p).isEmpty = false := by
  have h := (says_trim p name value).mpr h
  obtain ⟨n, v, n', v', h1, _⟩ := h
  rw [h1]; simp

theorem says_fun {p name v v' : Str} (h : Says p name v) (h' : Says p name v') : v = v' := by
  rw [says_iff] at h h'
  obtain ⟨a, b, h1, _, h2⟩ := h
  obtain ⟨a', b', h1', _, h2'⟩ := h'
  rw [h1] at h1'
  simp only [Option.some.injEq, Prod.mk.injEq] at h1'
  rw [h2, h2', h1'.2]

/-! ## Collecting parameters -/

theorem collectParams_some : ∀ (parts : List Str) (acc out : Tbl Str Str),
    collectParams parts acc = some out →
    (∀ name value, out.get name = some value ↔
      acc.get name = some value ∨ ∃ p ∈ parts, Says p name value) ∧
    (∀ p ∈ parts, ∃ name value, Says p name value) ∧
    (∀ p ∈ parts, ∀ name value, Says p name value → acc.get name = none) ∧
    parts.Pairwise (fun p q => ∀ name v w, Says p name v → ¬ Says q name w)
  | [], acc, out, h => by
    simp only [collectParams, Option.some.injEq] at h
    subst h
    simp
  | part :: rest, acc, out, h => by
    simp only [collectParams] at h
    split at h
    · cases h
    · rename_i n v hs
      split at h
      · cases h
      · rename_i hc
        have hsay : Says part (lower (trim n)) (trimMatches '"' (trim v)) :=
          (says_iff _ _ _).mpr ⟨n, v, hs, rfl, rfl⟩
        have honly : ∀ name value, Says part name value →
            name = lower (trim n) ∧ value = trimMatches '"' (trim v) := by
          intro name value hsv
          obtain ⟨n', v', h1, h2, h3⟩ := (says_iff _ _ _).mp hsv
          rw [hs] at h1
          simp only [Option.some.injEq, Prod.mk.injEq] at h1
          exact ⟨by rw [h2, h1.1], by rw [h3, h1.2]⟩
        have hnone : acc.get (lower (trim n)) = none := by
          simpa [Tbl.contains] using hc
        obtain ⟨i1, i2, i3, i4⟩ := collectParams_some rest _ out h
        refine ⟨?_, ?_, ?_, ?_⟩
        · intro name value
          rw [i1]
          constructor
          · rintro (h1 | ⟨p, hp, h1⟩)
            · by_cases he : name = lower (trim n)
              · subst he
                rw [Tbl.get_insert_self] at h1
                simp only [Option.some.injEq] at h1
                exact Or.inr ⟨part, by simp, h1 ▸ hsay⟩
              · rw [Tbl.get_insert_ne _ _ he] at h1
                exact Or.inl h1
            · exact Or.inr ⟨p, by simp [hp], h1⟩
          · rintro (h1 | ⟨p, hp, h1⟩)
            · left
              have : name ≠ lower (trim n) := by
                rintro rfl; rw [hnone] at h1; cases h1
              rw [Tbl.get_insert_ne _ _ this]; exact h1
            · rcases List.mem_cons.mp hp with rfl | hp
              · left
                obtain ⟨rfl, rfl⟩ := honly _ _ h1
                exact Tbl.get_insert_self _ _ _
              · exact Or.inr ⟨p, hp, h1⟩
        · intro p hp
          rcases List.mem_cons.mp hp with rfl | hp
          · exact ⟨_, _, hsay⟩
          · exact i2 p hp
        · intro p hp name value hsv
          rcases List.mem_cons.mp hp with rfl | hp
          · rw [(honly _ _ hsv).1]; exact hnone
          · have := i3 p hp name value hsv
            by_cases he : name = lower (trim n)
            · subst he; rw [Tbl.get_insert_self] at this; cases this
            · rwa [Tbl.get_insert_ne _ _ he] at this
        · rw [List.pairwise_cons]
          refine ⟨?_, i4⟩
          intro q hq name v' w h1 h2
          have := i3 q hq name w h2
          rw [(honly _ _ h1).1, Tbl.get_insert_self] at this
          cases this

theorem lower_of_says {p name value : Str} (h : Says p name value) : lower name = name := by
  obtain ⟨n, v, _, h2, _⟩ := (says_iff _ _ _).mp h
  rw [h2, lower_lower]

theorem fromRawGo_some : ∀ (params : List (Str × Str)) (acc out : Tbl Str Str),
    fromRawGo params acc = some out → (∀ q ∈ params, lower q.1 = q.1) →
    ∀ k, out.get k = (match Tbl.get (params : Tbl Str Str) k with | some v => some v | none => acc.get k)
  | [], acc, out, h, _, k => by
    simp only [fromRawGo, Option.some.injEq] at h
    subst h; rfl
  | (n, v) :: rest, acc, out, h, hl, k => by
    simp only [fromRawGo] at h
    split at h; · cases h
    split at h; · cases h
    split at h; · cases h
    split at h; · cases h
    rename_i hc _
    have hn : lower n = n := hl (n, v) (by simp)
    rw [fromRawGo_some rest _ out h (fun q hq => hl q (by simp [hq])) k, Tbl.get_cons, hn]
    rw [hn] at hc
    by_cases hk : n = k
    · subst hk
      rw [if_pos rfl]
      cases hr : Tbl.get (rest : Tbl Str Str) n with
      | none => simp
      | some w =>
        -- a second occurrence of the key would have been refused
        exfalso
        have : ∀ (l : List (Str × Str)) (acc : Tbl Str Str) (out : Tbl Str Str),
            fromRawGo l acc = some out → (∀ q ∈ l, lower q.1 = q.1) →
            ∀ k, acc.contains k = true → Tbl.get (l : Tbl Str Str) k = none := by
          intro l
          induction l with
          | nil => intros; rfl
          | cons q l ih =>
            obtain ⟨n', v'⟩ := q
            intro acc out h hl k hk
            simp only [fromRawGo] at h
            split at h; · cases h
            split at h; · cases h
            split at h; · cases h
            split at h; · cases h
            rename_i hc' _
            have hn' : lower n' = n' := hl (n', v') (by simp)
            rw [hn'] at h hc'
            have hne : n' ≠ k := by rintro rfl; exact hc' hk
            rw [Tbl.get_cons, if_neg hne]
            refine ih _ out h (fun q hq => hl q (by simp [hq])) k ?_
            simp only [Tbl.contains] at hk ⊢
            rw [Tbl.get_insert_ne _ _ (Ne.symm hne)]; exact hk
        rw [hn] at h
        have := this rest _ out h (fun q hq => hl q (by simp [hq])) n (by simp [Tbl.contains])
        rw [hr] at this; cases this
    · rw [if_neg hk]
      cases Tbl.get (rest : Tbl Str Str) k with
      | some w => rfl
      | none => simp only; rw [Tbl.get_insert_ne _ _ (Ne.symm hk)]

theorem collectParams_lower : ∀ (parts : List Str) (acc out : Tbl Str Str),
    collectParams parts acc = some out → (∀ q ∈ acc, lower q.1 = q.1) → ∀ q ∈ out, lower q.1 = q.1
  | [], acc, out, h, ha => by
    simp only [collectParams, Option.some.injEq] at h
    subst h; exact ha
  | part :: rest, acc, out, h, ha => by
    simp only [collectParams] at h
    split at h
    · cases h
    · split at h
      · cases h
      · refine collectParams_lower rest _ out h ?_
        intro q hq
        simp only [Tbl.insert, Tbl.remove, List.mem_cons, List.mem_filter] at hq
        rcases hq with rfl | ⟨hq, _⟩
        · exact lower_lower _
        · exact ha q hq

/-- exactly one element of the list is about `name`, and it says `value` -/
def OneSays (ps : List Str) (name value : Str) : Prop :=
  ∃ before p after, ps = before ++ p :: after ∧ Says p name value ∧
    ∀ q ∈ before ++ after, ∀ v, ¬ Says q name v

theorem parseParams_param {rem scheme : Str} {h : AuthHeader}
    (hp : (match splitQuotedCommas rem MAX_PARAMS with
      | none => none
      | some parts => match collectParams parts [] with
        | none => none
        | some params => fromRaw scheme params) = some h)
    (name value : Str) (hname : lower name = name) :
    h.scheme = scheme ∧
    (h.param name = some value ↔
      ∃ ps, rem = joinCommas ps ∧ (∀ p ∈ ps, Element p) ∧ OneSays ps name value) := by
  split at hp
  · cases hp
  · rename_i parts hparts
    split at hp
    · cases hp
    · rename_i params hparams
      unfold fromRaw at hp
      split at hp
      · cases hp
      · simp only [Option.map_eq_some_iff] at hp
        obtain ⟨out, hout, rfl⟩ := hp
        refine ⟨rfl, ?_⟩
        have hget := fromRawGo_some params [] out hout (collectParams_lower _ _ _ hparams (by simp))
        obtain ⟨c1, c2, c3, c4⟩ := collectParams_some parts [] params hparams
        have hparam : ∀ k, out.get k = params.get k := by
          intro k
          rw [hget k]
          cases Tbl.get (params : Tbl Str Str) k <;> rfl
        unfold AuthHeader.param
        simp only [hname]
        rw [hparam, c1]
        simp only [Tbl.get_nil, reduceCtorEq, false_or]
        obtain ⟨ps, hps, hj, hel, hpc⟩ := splitQuotedCommas_some hparts
        subst hpc
        constructor
        · rintro ⟨p, hpm, hsay⟩
          refine ⟨ps, hj, hel, ?_⟩
          simp only [pieces, List.mem_filter, List.mem_map] at hpm
          obtain ⟨⟨p0, hp0, rfl⟩, _⟩ := hpm
          obtain ⟨before, after, rfl⟩ := List.append_of_mem hp0
          refine ⟨before, p0, after, rfl, (says_trim _ _ _).mp hsay, ?_⟩
          have hpw : ((before ++ p0 :: after).map trim).Pairwise
              (fun p q => ∀ name v w, Says p name v → ¬ Says q name w) := by
            unfold pieces at c4
            rw [List.pairwise_filter] at c4
            refine c4.imp ?_
            intro x y hxy name v w h1 h2
            have e1 : (!x.isEmpty) = true := by
              obtain ⟨n, v, _, _, e, _⟩ := h1; simp [e]
            have e2 : (!y.isEmpty) = true := by
              obtain ⟨n, v, _, _, e, _⟩ := h2; simp [e]
            exact hxy e1 e2 name v w h1 h2
          rw [List.map_append, List.map_cons, List.pairwise_append, List.pairwise_cons] at hpw
          intro q hq v hv
          rcases List.mem_append.mp hq with hq | hq
          · exact hpw.2.2 (trim q) (List.mem_map_of_mem hq) (trim p0) (by simp) name v value
              ((says_trim _ _ _).mpr hv) hsay
          · exact hpw.2.1.1 (trim q) (List.mem_map_of_mem hq) name value v hsay
              ((says_trim _ _ _).mpr hv)
        · rintro ⟨qs, h2, h5, before, p, after, h6, h7, h8⟩
          refine ⟨trim p, ?_, (says_trim _ _ _).mpr h7⟩
          rw [pieces_unique hel h5 (hj.symm.trans h2)]
          simp only [pieces, List.mem_filter, List.mem_map]
          exact ⟨⟨p, by rw [h6]; simp, rfl⟩, by simp [says_nonblank h7]⟩

theorem parseAuthorization_form {raw : Str} {h : AuthHeader} (hp : parseAuthorization raw = some h) :
    ∃ first rem, (splitOnce ' ' (trim raw) = some (first, rem) ∨
        splitOnce ' ' (trim raw) = none ∧ first = trim raw ∧ rem = []) ∧
      (match splitQuotedCommas rem MAX_PARAMS with
      | none => none
      | some parts => match collectParams parts [] with
        | none => none
        | some params => fromRaw (trim first) params) = some h := by
  unfold parseAuthorization at hp
  simp only at hp
  by_cases he : (trim raw).isEmpty = true
  · rw [if_pos he] at hp; cases hp
  · rw [if_neg he] at hp
    cases hs : splitOnce ' ' (trim raw) with
    | none => rw [hs] at hp; exact ⟨trim raw, [], Or.inr ⟨rfl, rfl, rfl⟩, hp⟩
    | some q => obtain ⟨a, b⟩ := q; rw [hs] at hp; exact ⟨a, b, Or.inl rfl, hp⟩

/-- The parser finds exactly the parameters the text carries. -/
theorem parseAuthorization_param {raw : Str} {h : AuthHeader} (hp : parseAuthorization raw = some h)
    (name value : Str) (hname : lower name = name) :
    h.param name = some value ↔ Carries raw h.scheme name value := by
  obtain ⟨first, rem, hs, hp⟩ := parseAuthorization_form hp
  obtain ⟨hsch, hpar⟩ := parseParams_param hp name value hname
  rw [hpar, hsch]
  constructor
  · rintro ⟨ps, h1, h2, h3⟩
    rcases hs with hs | ⟨hs, rfl, rfl⟩
    · have hab := (splitOnce_some_iff _ _ _ _).mp hs
      exact ⟨trim raw, first, ps, strips_stripBoth _ _, by rw [hab.1, h1], hab.2,
        strips_stripBoth _ _, h2, h3⟩
    · exfalso
      have : joinCommas ps = joinCommas [[]] := h1.symm
      have hu := pieces_unique h2 (by
        intro p hp; simp at hp; subst hp; exact ⟨rfl, by intro a b h; simp at h⟩) this
      obtain ⟨before, p, after, h6, h7, _⟩ := h3
      have : trim p ∈ pieces ps := by
        simp only [pieces, List.mem_filter, List.mem_map]
        exact ⟨⟨p, by rw [h6]; simp, rfl⟩, by simp [says_nonblank h7]⟩
      rw [hu] at this
      simp [pieces, trim, trimStart, trimEnd] at this
  · rintro ⟨t, first', qs, h1, h2, h3, h4, h5, h6⟩
    have ht : t = trim raw := (strips_trim _ _).mp h1
    subst ht
    have hab : splitOnce ' ' (trim raw) = some (first', joinCommas qs) :=
      (splitOnce_some_iff _ _ _ _).mpr ⟨h2, h3⟩
    rcases hs with hs | ⟨hs, _, _⟩
    · rw [hs] at hab
      simp only [Option.some.injEq, Prod.mk.injEq] at hab
      exact ⟨qs, hab.2, h5, h6⟩
    · rw [hs] at hab; cases hab

/-- Only one scheme and one value can be carried. -/
theorem parseAuthorization_scheme {raw : Str} {h : AuthHeader} (hp : parseAuthorization raw = some h)
    {scheme name value : Str} (hc : Carries raw scheme name value) : scheme = h.scheme := by
  obtain ⟨first, rem, hs, hp⟩ := parseAuthorization_form hp
  obtain ⟨hsch, _⟩ := parseParams_param hp [] [] rfl
  obtain ⟨t, first', qs, h1, h2, h3, h4, _⟩ := hc
  have ht : t = trim raw := (strips_trim _ _).mp h1
  subst ht
  have hab : splitOnce ' ' (trim raw) = some (first', joinCommas qs) :=
    (splitOnce_some_iff _ _ _ _).mpr ⟨h2, h3⟩
  rw [hsch]
  rcases hs with hs | ⟨hs, _, _⟩
  · rw [hs] at hab
    simp only [Option.some.injEq, Prod.mk.injEq] at hab
    rw [hab.1]; exact (strips_trim _ _).mp h4
  · rw [hs] at hab; cases hab

/-! ## Hexadecimal numbers -/

theorem hexVal_some {c : Char} {d : Nat} (h : hexVal c = some d) : HexDigit c d := by
  unfold hexVal at h
  simp only [char_le_iff] at h
  have e0 : '0'.toNat = 48 := rfl
  have e9 : '9'.toNat = 57 := rfl
  have ea : 'a'.toNat = 97 := rfl
  have ef : 'f'.toNat = 102 := rfl
  have eA : 'A'.toNat = 65 := rfl
  have eF : 'F'.toNat = 70 := rfl
  simp only [e0, e9, ea, ef, eA, eF] at h
  split at h
  · simp only [Option.some.injEq] at h; subst h; rename_i hh; exact .dec hh.1 hh.2
  · split at h
    · simp only [Option.some.injEq] at h; subst h; rename_i hh; exact .low hh.1 hh.2
    · split at h
      · simp only [Option.some.injEq] at h; subst h; rename_i hh; exact .upp hh.1 hh.2
      · cases h

theorem parseHexDigits_some : ∀ (cs : Str) (pre : Str) (acc n : Nat),
    (pre = [] ∧ acc = 0 ∨ HexDigits pre acc) → parseHexDigits cs acc = some n →
    (pre ++ cs ≠ []) → HexDigits (pre ++ cs) n
  | [], pre, acc, n, hpre, h, hne => by
    simp only [parseHexDigits, Option.some.injEq] at h
    subst h
    rcases hpre with ⟨rfl, rfl⟩ | hpre
    · simp at hne
    · simpa using hpre
  | c :: cs, pre, acc, n, hpre, h, hne => by
    simp only [parseHexDigits] at h
    split at h
    · cases h
    · rename_i d hd
      split at h
      · cases h
      · have hdig := hexVal_some hd
        have hstep : HexDigits (pre ++ [c]) (acc * 16 + d) := by
          rcases hpre with ⟨rfl, rfl⟩ | hpre
          · simpa using HexDigits.one hdig
          · exact .snoc hpre hdig
        have := parseHexDigits_some cs (pre ++ [c]) _ n (Or.inr hstep) h (by simp)
        simpa using this

theorem parseHexU32_some {t : Str} {n : Nat} (h : parseHexU32 t = some n) : HexNumber t n := by
  unfold parseHexU32 at h
  split at h
  · cases h
  · cases h
  · cases h
  · rename_i hne
    right
    refine ⟨_, rfl, ?_⟩
    have := parseHexDigits_some _ [] 0 n (Or.inl ⟨rfl, rfl⟩) h
    simp only [List.nil_append] at this
    apply this
    intro he
    simp [he] at hne
  · rename_i hne _ _ _
    left
    have := parseHexDigits_some t [] 0 n (Or.inl ⟨rfl, rfl⟩) h
    simp only [List.nil_append] at this
    exact this hne

end Siphon.Auth
