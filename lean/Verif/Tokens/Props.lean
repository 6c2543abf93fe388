import Verif.Tokens.Spec
import Verif.Prio.Props
/-!
# C142: lists of tokens
-/
namespace Siphon.Tokens
open TextSpec HdrSpec Spec

theorem validToken_iff (s : Str) : validToken s = true ↔ Good s := by
  unfold validToken Good Token MAX_TOKEN_LENGTH
  have hc : ∀ c, validChar c = true ↔ TokenChar c ∧ c ≠ '^' ∧ c ≠ '|' := Prio.etagChar_iff
  simp only [Bool.and_eq_true, Bool.not_eq_true', List.isEmpty_eq_false_iff, List.all_eq_true, decide_eq_false_iff_not, Nat.not_lt, hc]
  constructor
  · rintro ⟨⟨h1, h2⟩, h4⟩
    exact ⟨⟨⟨h1, fun c hc => (h4 c hc).1⟩, fun hm => (h4 _ hm).2.1 rfl, fun hm => (h4 _ hm).2.2 rfl⟩, h2⟩
  · rintro ⟨⟨⟨h1, h4⟩, h5, h6⟩, h2⟩
    exact ⟨⟨h1, h2⟩, fun c hc => ⟨h4 c hc, fun e => h5 (e ▸ hc), fun e => h6 (e ▸ hc)⟩⟩

theorem collect_iff (ts acc l : List Str) (ha : acc.length ≤ 50) :
    collect ts acc = some l ↔ l = acc ++ ts ∧ (∀ t ∈ ts, Good t) ∧ l.length ≤ 50 := by
  induction ts generalizing acc with
  | nil =>
    simp only [collect, Option.some.injEq, List.append_nil]
    constructor
    · rintro rfl; exact ⟨rfl, by simp, ha⟩
    · rintro ⟨rfl, _⟩; rfl
  | cons t ts ih =>
    unfold collect
    have hM : MAX_TOKENS = 50 := rfl
    by_cases hf : acc.length ≥ MAX_TOKENS
    · rw [if_pos hf]
      simp only [reduceCtorEq, false_iff]
      rintro ⟨rfl, _, h⟩
      simp only [List.length_append, List.length_cons] at h
      omega
    · rw [if_neg hf]
      cases hv : validToken t with
      | false =>
        simp only [Bool.not_false, if_true, reduceCtorEq, false_iff]
        rintro ⟨_, h, _⟩
        rw [(validToken_iff t).mpr (h t (by simp))] at hv
        cases hv
      | true =>
        simp only [Bool.not_true, Bool.false_eq_true, if_false]
        rw [ih _ (by simp; omega)]
        have hg := (validToken_iff t).mp hv
        simp only [List.append_assoc, List.singleton_append, List.mem_cons, forall_eq_or_imp, hg, true_and]

/-- **C142**: a list is made from texts exactly if they are at most fifty tokens, and has them in order; a token is added at the end. -/
theorem C142_made (ts l : List Str) (t : Str) (m : List Str) :
    (fromTokens ts = some l ↔ l = ts ∧ ts.length ≤ 50 ∧ ∀ t ∈ ts, Good t) ∧
    (add l t = some m ↔ ∃ w, Strips isWs t w ∧ Good w ∧ l.length < 50 ∧ m = l ++ [w]) := by
  constructor
  · unfold fromTokens
    rw [collect_iff _ _ _ (by simp)]
    constructor
    · rintro ⟨rfl, h1, h2⟩; exact ⟨rfl, by simpa using h2, h1⟩
    · rintro ⟨rfl, h1, h2⟩; exact ⟨rfl, h2, h1⟩
  · have e : ∀ w, Strips isWs t w ↔ w = trim t := strips_trim t
    simp only [e, exists_eq_left]
    unfold add
    rw [← validToken_iff]
    have hM : MAX_TOKENS = 50 := rfl
    by_cases hf : l.length ≥ MAX_TOKENS
    · rw [if_pos hf]
      simp only [reduceCtorEq, false_iff]
      rintro ⟨_, h, _⟩; omega
    · rw [if_neg hf]
      have hf' : l.length < 50 := by omega
      cases validToken (trim t) <;> simp [hf', eq_comm]

theorem stripped_iff (ps ts : List Str) : Stripped ps ts ↔ ts = ps.map trim := by
  constructor
  · intro h
    induction h with
    | nil => rfl
    | cons h _ ih => rw [(strips_trim _ _).mp h, ih]; rfl
  · rintro rfl
    induction ps with
    | nil => exact .nil
    | cons p ps ih => exact .cons ((strips_trim _ _).mpr rfl) ih

theorem splitChar_pre (c : Char) (a s : Str) (ha : c ∉ a) :
    ∃ p ps, splitChar c s = p :: ps ∧ splitChar c (a ++ s) = (a ++ p) :: ps := by
  obtain ⟨h1, h2, h3⟩ := (pieces_iff c s _).mpr rfl
  cases hs : splitChar c s with
  | nil => exact absurd hs h1
  | cons p ps =>
    refine ⟨p, ps, rfl, ?_⟩
    rw [hs] at h2 h3
    refine ((pieces_iff c _ _).mp ⟨by simp, ?_, ?_⟩).symm
    · rw [h2]; cases ps <;> simp [join]
    · intro q hq
      rcases List.mem_cons.mp hq with rfl | hq
      · simp [ha, h3 p (by simp)]
      · exact h3 q (by simp [hq])

theorem join_post (c : Char) (b : Str) : ∀ (ps : List Str) (q : Str), join c (ps ++ [q]) ++ b = join c (ps ++ [q ++ b])
  | [], q => by simp [join]
  | [p], q => by simp [join]
  | p :: p' :: ps, q => by
    have := join_post c b (p' :: ps) q
    simp only [List.cons_append, join, List.append_assoc] at this ⊢
    rw [this]

theorem splitChar_post (c : Char) (b s : Str) (hb : c ∉ b) :
    ∃ ps q, splitChar c s = ps ++ [q] ∧ splitChar c (s ++ b) = ps ++ [q ++ b] := by
  obtain ⟨h1, h2, h3⟩ := (pieces_iff c s _).mpr rfl
  obtain ⟨ps, q, hs⟩ : ∃ ps q, splitChar c s = ps ++ [q] := ⟨_, _, (List.dropLast_append_getLast h1).symm⟩
  refine ⟨ps, q, hs, ?_⟩
  rw [hs] at h2 h3
  refine ((pieces_iff c _ _).mp ⟨by simp, ?_, ?_⟩).symm
  · rw [← join_post, ← h2]
  · intro r hr
    rcases List.mem_append.mp hr with hr | hr
    · exact h3 r (by simp [hr])
    · rcases List.mem_singleton.mp hr with rfl
      simp [hb, h3 q (by simp)]

theorem trim_pre (a s : Str) (ha : ∀ c ∈ a, isWs c = true) : trim (a ++ s) = trim s := by
  obtain ⟨x, y, h, hx, hy, ht⟩ := (strips_trim s _).mpr rfl
  refine ((strips_trim _ _).mp ⟨a ++ x, y, ?_, ?_, hy, ht⟩).symm
  · conv_lhs => rw [h]
    simp
  · intro c hc
    rcases List.mem_append.mp hc with hc | hc
    · exact ha c hc
    · exact hx c hc

theorem trim_post (b s : Str) (hb : ∀ c ∈ b, isWs c = true) : trim (s ++ b) = trim s := by
  obtain ⟨x, y, h, hx, hy, ht⟩ := (strips_trim s _).mpr rfl
  refine ((strips_trim _ _).mp ⟨x, y ++ b, ?_, hx, ?_, ht⟩).symm
  · conv_lhs => rw [h]
    simp
  · intro c hc
    rcases List.mem_append.mp hc with hc | hc
    · exact hy c hc
    · exact hb c hc

/-- White space around the list does not change the trimmed pieces. -/
theorem pieces_trim (v : Str) : (splitChar ',' (trim v)).map trim = (splitChar ',' v).map trim := by
  obtain ⟨a, b, h, ha, hb, _⟩ := (strips_trim v _).mpr rfl
  have na : ',' ∉ a := fun h => by have := ha _ h; revert this; decide
  have nb : ',' ∉ b := fun h => by have := hb _ h; revert this; decide
  obtain ⟨p, ps, e1, e2⟩ := splitChar_pre ',' a (trim v) na
  obtain ⟨qs, q, e3, e4⟩ := splitChar_post ',' b (a ++ trim v) nb
  conv_rhs => rw [h]
  rw [e4, List.map_append, List.map_singleton, trim_post _ _ hb, ← List.map_singleton, ← List.map_append, ← e3, e2, e1,
    List.map_cons, List.map_cons, trim_pre _ _ ha]

/-- **C142**: a text is read as a list of tokens exactly if it lists them. -/
theorem C142_parse (v : Str) (ts : List Str) : parse v = some ts ↔ Lists v ts := by
  have hnil : (trim v).isEmpty = true → ¬ Lists v ts := by
    rintro he ⟨_, _, hg, ps, hp, hs⟩
    rw [List.isEmpty_iff] at he
    rw [stripped_iff, (pieces_iff _ _ _).mp hp, ← pieces_trim, he] at hs
    exact (hg [] (by rw [hs]; decide)).1.1.1 rfl
  unfold parse
  split
  · rename_i he
    exact ⟨fun h => (by cases h), fun h => absurd h (hnil he)⟩
  · rw [(C142_made _ ts [] []).1, pieces_trim]
    unfold Lists
    constructor
    · rintro ⟨rfl, h1, h2⟩
      exact ⟨by simpa using splitChar_ne_nil ',' v, h1, h2, _, (pieces_iff _ _ _).mpr rfl, (stripped_iff _ _).mpr rfl⟩
    · rintro ⟨_, h1, h2, ps, hp, hs⟩
      rw [stripped_iff, (pieces_iff _ _ _).mp hp] at hs
      rw [← hs]
      exact ⟨rfl, h1, h2⟩

/-- Options with blanks and in any case. -/
example : Lists " 100rel ,Timer".toList ["100rel".toList, "Timer".toList] ∧ Has ["100rel".toList, "Timer".toList] "timer".toList :=
  ⟨(C142_parse _ _).mp (by decide +kernel), ⟨"Timer".toList, by decide, (sameName_iff _ _).mpr (by decide)⟩⟩

/-- **C142**: a list is asked for a token in any case. -/
theorem C142_contains (l : List Str) (t : Str) : contains l t = true ↔ Has l t := by
  unfold contains Has
  simp only [List.any_eq_true, sameName_iff]

theorem good_ws {t : Str} (h : Good t) : ∀ c ∈ t, isWs c = false := fun c hc => Prio.tokenChar_not_ws (h.1.1.2 c hc)

theorem good_comma {t : Str} (h : Good t) : ',' ∉ t := fun hm => by
  have := (isHeaderNameChar_iff ',').mpr (h.1.1.2 _ hm)
  revert this; decide

theorem pieces_text (a : Str) (ha : ∀ c ∈ a, isWs c = true) : ∀ (ts : List Str), ts ≠ [] → (∀ t ∈ ts, Good t) →
    ∃ ps, Pieces ',' (a ++ text ts) ps ∧ Stripped ps ts := by
  intro ts
  have hac : ',' ∉ a := fun h => by have := ha _ h; revert this; decide
  induction ts generalizing a with
  | nil => intro h; exact absurd rfl h
  | cons t ts ih =>
    intro _ hg
    have h3 := good_ws (hg t (by simp))
    have h2 := good_comma (hg t (by simp))
    cases ts with
    | nil => exact ⟨[a ++ t], ⟨by simp, by simp [join, text], by simp [hac, h2]⟩, .cons (Prio.strips_lead a _ ha h3) .nil⟩
    | cons w ws =>
      obtain ⟨ps, ⟨q1, q2, q3⟩, hv⟩ := ih [' '] (by decide) (by decide) (by simp) (fun x hx => hg x (List.mem_cons_of_mem _ hx))
      refine ⟨(a ++ t) :: ps, ⟨by simp, ?_, ?_⟩, .cons (Prio.strips_lead a _ ha h3) hv⟩
      · cases ps with
        | nil => exact absurd rfl q1
        | cons p ps =>
          simp only [join, text]
          rw [← q2]
          simp
      · intro p hp'
        rcases List.mem_cons.mp hp' with rfl | hp'
        · simp [hac, h2]
        · exact q3 p hp'

/-- **C142**: every list that was made and is not empty is read back from its text, with its tokens in their case and order. -/
theorem C142_roundtrip {ts l : List Str} (h : fromTokens ts = some l) (hne : l ≠ []) : parse (text l) = some l := by
  obtain ⟨rfl, h1, h2⟩ := (C142_made ts l [] []).1.mp h
  exact (C142_parse _ _).mpr ⟨hne, h1, h2, by simpa using pieces_text [] (by simp) l hne h2⟩

example : fromTokens ["INVITE".toList, "ACK".toList] = some ["INVITE".toList, "ACK".toList] ∧
    text ["INVITE".toList, "ACK".toList] = "INVITE, ACK".toList := by constructor <;> decide +kernel

/-- **C142** fails: the empty list is written as a text that is not read as a list.  (An empty Supported or Allow is allowed.) -/
theorem C142_empty : fromTokens [] = some [] ∧ parse (text []) = none := by constructor <;> decide +kernel

/-- **C142** fails: in Allow and Supported one element that is not a token, or an empty one, loses all others: what the text lists besides
is as if it were not there. -/
theorem C142_one_bad (v : Str) (ps : List Str) (hp : Pieces ',' v ps) (p t : Str) (hm : p ∈ ps) (hs : Strips isWs p t) (hb : ¬ Good t) :
    parseAllow v = [] ∧ ∀ x, ¬ Has (parseAllow v) x := by
  have hn : parse v = none := by
    cases hv : parse v with
    | none => rfl
    | some ts =>
      obtain ⟨_, _, hg, qs, hq, hs'⟩ := (C142_parse v ts).mp hv
      rw [stripped_iff, (pieces_iff _ _ _).mp hq, ← (pieces_iff _ _ _).mp hp] at hs'
      exact absurd (hg t (by rw [hs', (strips_trim _ _).mp hs]; exact List.mem_map.mpr ⟨p, hm, rfl⟩)) hb
  have e : parseAllow v = [] := by unfold parseAllow; rw [hn]; rfl
  exact ⟨e, fun x => by rw [e]; rintro ⟨y, hy, _⟩; cases hy⟩

/-- A comma at the end is such a case. -/
example : parseAllow "100rel, timer,".toList = [] ∧ parseAllow "100rel, timer".toList = ["100rel".toList, "timer".toList] := by
  constructor <;> decide +kernel

/-- What the headers give otherwise: the list. -/
theorem C142_headers {v : Str} {ts : List Str} (h : Lists v ts) : parseAllow v = ts := by
  unfold parseAllow
  rw [(C142_parse v ts).mpr h]
  rfl

end Siphon.Tokens
