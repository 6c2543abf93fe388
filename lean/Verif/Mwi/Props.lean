import Verif.Mwi.Spec
import Verif.Base.Strip
import Verif.Base.TextLemmas
import Verif.Base.CharLemmas
import Verif.Core.HeadersProps
import Verif.Offer.Lemmas
import Verif.Registrar.LemmasText
set_option linter.unusedSimpArgs false
set_option linter.unusedVariables false
/-!
# C139: message summaries
-/
namespace Siphon.Mwi
open TextSpec HdrSpec Spec

theorem validAccount_iff (s : Str) : validAccount s = true ↔ Good 512 s := by
  unfold validAccount Good
  simp only [Bool.and_eq_true, Bool.not_eq_true', decide_eq_false_iff_not, Nat.not_lt, gt_iff_lt, List.any_eq_false, Bool.not_eq_true]

theorem validHeaderValue_iff (s : Str) : validHeaderValue s = true ↔ Good 1024 s := by
  unfold validHeaderValue Good
  simp only [Bool.and_eq_true, Bool.not_eq_true', decide_eq_false_iff_not, Nat.not_lt, gt_iff_lt, List.any_eq_false, Bool.not_eq_true]

/-! ## Numbers -/

theorem pair_iff (s : Str) (m n : Nat) : Pair s m n ↔ readPair s = some (m, n) := by
  unfold Pair readPair
  constructor
  · rintro ⟨a, b, h1, h2, h3, h4, h5⟩
    rw [pieces_iff] at h1
    rw [← h1]
    simp only
    rw [(parseDec_iff _ _ _).2 ⟨h2, by omega⟩, (parseDec_iff _ _ _).2 ⟨h3, by omega⟩]
  · intro h
    split at h
    · rename_i a b hs
      split at h
      · rename_i x y hx hy
        cases h
        rw [parseDec_iff] at hx hy
        exact ⟨a, b, (pieces_iff _ _ _).2 hs.symm, hx.1, hy.1, by omega, by omega⟩
      · cases h
    · cases h

theorem counts_iff (s : Str) (k : Counts) : CountsText s k ↔ parseCounts s = some k := by
  unfold parseCounts
  constructor
  · intro h
    cases h with
    | plain hw hp =>
      rw [words_iff] at hw
      rw [hw]; simp only
      rw [(pair_iff _ _ _).1 hp]
    | urgent hw hp hs hu =>
      rw [words_iff] at hw
      rw [strips_iff] at hs
      subst hs
      rw [hw]; simp only
      rw [(pair_iff _ _ _).1 hp]; simp only
      have : readPair (trimParens _) = some _ := (pair_iff _ _ _).1 hu
      rw [this]
    | @unclear w u x ws n o hw hp hs hu =>
      rw [words_iff] at hw
      rw [strips_iff] at hs
      subst hs
      rw [hw]; simp only
      rw [(pair_iff _ _ _).1 hp]; simp only
      have : readPair (trimParens u) = none := by
        cases hr : readPair (trimParens u) with
        | none => rfl
        | some y => exact absurd ((pair_iff _ _ _).2 hr) (hu y.1 y.2)
      rw [this]
  · intro h
    split at h
    · cases h
    · rename_i w ws hw
      split at h
      · cases h
      · rename_i n o hp
        split at h
        · cases h
          exact .plain ((words_iff _ _).2 hw) ((pair_iff _ _ _).2 hp)
        · rename_i u t
          split at h
          · rename_i un uo hu
            cases h
            exact .urgent ((words_iff _ _).2 hw) ((pair_iff _ _ _).2 hp) ((strips_iff _ _ _).2 rfl) ((pair_iff _ _ _).2 hu)
          · rename_i hu
            cases h
            refine .unclear ((words_iff _ _).2 hw) ((pair_iff _ _ _).2 hp) ((strips_iff _ _ _).2 rfl) (fun un uo hx => ?_)
            have : readPair (trimParens u) = some (un, uo) := (pair_iff _ _ _).1 hx
            rw [this] at hu
            cases hu

/-! ## Names -/

/-- What a name stands for. -/
inductive Name | status | account | cls (c : Class) | fld (f : Field) | unknown
  deriving DecidableEq

def nameOf (l : Str) : Name :=
  if l = "messages-waiting".toList then .status
  else if l = "message-account".toList then .account
  else if "-message".toList.isSuffixOf l then
    match Class.fromName l with
    | some c => .cls c
    | none => .unknown
  else
    match Field.fromName l with
    | some f => .fld f
    | none => .unknown

theorem same_iff (n : Str) (w : String) : SameName n w.toList ↔ lower n = lower w.toList := by
  rw [sameName_iff]; unfold eqIgnoreCase; rw [beq_iff_eq]

theorem fromName_some (l : Str) (c : Class) (h : Class.fromName l = some c) : lower l = lower (className c).toList := by
  unfold Class.fromName at h
  repeat' split at h
  all_goals first | (cases h; rename_i e; rw [e]; decide) | cases h

theorem fieldName_some (l : Str) (f : Field) (h : Field.fromName l = some f) : l = lower (fieldName f).toList := by
  unfold Field.fromName at h
  repeat' split at h
  all_goals first | (cases h; rename_i e; rw [e]; decide) | cases h

theorem nameOf_status (n : Str) : nameOf (lower n) = .status ↔ SameName n "Messages-Waiting".toList := by
  rw [same_iff]
  constructor
  · intro h
    unfold nameOf at h
    split at h
    · rename_i e; rw [e]; decide
    · repeat' split at h
      all_goals cases h
  · intro h; rw [h]; decide

theorem nameOf_account (n : Str) : nameOf (lower n) = .account ↔ SameName n "Message-Account".toList := by
  rw [same_iff]
  constructor
  · intro h
    unfold nameOf at h
    split at h
    · cases h
    · split at h
      · rename_i e; rw [e]; decide
      · repeat' split at h
        all_goals cases h
  · intro h; rw [h]; decide

theorem nameOf_cls (n : Str) (c : Class) : nameOf (lower n) = .cls c ↔ SameName n (className c).toList := by
  rw [same_iff]
  constructor
  · intro h
    unfold nameOf at h
    split at h
    · cases h
    · split at h
      · cases h
      · split at h
        · split at h
          · rename_i e
            cases h
            rw [← fromName_some _ _ e, lower_lower]
          · cases h
        · split at h <;> cases h
  · intro h; rw [h]; cases c <;> decide

theorem nameOf_fld (n : Str) (f : Field) : nameOf (lower n) = .fld f ↔ SameName n (fieldName f).toList := by
  rw [same_iff]
  constructor
  · intro h
    unfold nameOf at h
    split at h
    · cases h
    · split at h
      · cases h
      · split at h
        · split at h <;> cases h
        · split at h
          · rename_i e
            cases h
            exact fieldName_some _ _ e
          · cases h
  · intro h; rw [h]; cases f <;> decide

/-! ## Lines -/

/-- What a line says. -/
def classify (raw : Str) : Line :=
  if (trim raw).isEmpty then .blank
  else
    match splitOnce ':' (trim raw) with
    | none => .other
    | some (n, v) =>
      match nameOf (lower (trim n)) with
      | .status => if eqIgnoreCase (trim v) "yes".toList then .status true else if eqIgnoreCase (trim v) "no".toList then .status false else .wrong
      | .account => .account (trim v)
      | .cls c => match parseCounts (trim v) with | some k => .counts c k | none => .other
      | .fld f => .field f (trim v)
      | .unknown => .other

theorem entry_iff (s n v : Str) : Entry s n v ↔ ∃ k w, splitOnce ':' (trim s) = some (k, w) ∧ n = trim k ∧ v = trim w := by
  unfold Entry
  constructor
  · rintro ⟨k, w, h1, h2, h3, h4⟩
    rw [strips_trim] at h1 h3 h4
    exact ⟨k, w, by rw [← h1]; exact splitOnce_append ':' k w h2, h3, h4⟩
  · rintro ⟨k, w, h1, h2, h3⟩
    obtain ⟨e, hn⟩ := (Offer.splitOnce_some_iff _ _ _ _).1 h1
    exact ⟨k, w, (strips_trim _ _).2 e.symm, hn, (strips_trim _ _).2 h2, (strips_trim _ _).2 h3⟩

theorem classify_entry (s k w : Str) (h : splitOnce ':' (trim s) = some (k, w)) : classify s =
    match nameOf (lower (trim k)) with
      | .status => if eqIgnoreCase (trim w) "yes".toList then .status true else if eqIgnoreCase (trim w) "no".toList then .status false else .wrong
      | .account => .account (trim w)
      | .cls c => match parseCounts (trim w) with | some k => .counts c k | none => .other
      | .fld f => .field f (trim w)
      | .unknown => .other := by
  have hne : (trim s).isEmpty = false := by
    cases ht : trim s with
    | nil => rw [ht] at h; cases h
    | cons a b => rfl
  unfold classify
  rw [hne, h]
  rfl

theorem says_iff (s : Str) (x : Line) : Says s x ↔ classify s = x := by
  have yn : ∀ v : Str, eqIgnoreCase v "no".toList = true → eqIgnoreCase v "yes".toList = false := by
    intro v h
    unfold eqIgnoreCase at h ⊢
    rw [beq_iff_eq] at h
    rw [h]; decide
  constructor
  · intro h
    cases h with
    | blank h =>
      rw [strips_trim] at h
      unfold classify; rw [← h]; rfl
    | @noColon l h h1 h2 =>
      rw [strips_trim] at h
      unfold classify
      rw [← h, (Registrar.splitOnce_none_iff ':' l).2 h2]
      cases l with
      | nil => exact absurd rfl h1
      | cons a b => rfl
    | yes h hn hv =>
      obtain ⟨k, w, h1, rfl, rfl⟩ := (entry_iff _ _ _).1 h
      rw [classify_entry s k w h1, (nameOf_status _).2 hn]
      simp only
      rw [if_pos ((sameName_iff _ _).1 hv)]
    | no h hn hv =>
      obtain ⟨k, w, h1, rfl, rfl⟩ := (entry_iff _ _ _).1 h
      rw [classify_entry s k w h1, (nameOf_status _).2 hn]
      have := (sameName_iff _ _).1 hv
      simp only
      rw [yn _ this, if_neg (by simp), if_pos this]
    | wrong h hn hv hv' =>
      obtain ⟨k, w, h1, rfl, rfl⟩ := (entry_iff _ _ _).1 h
      rw [classify_entry s k w h1, (nameOf_status _).2 hn]
      simp only
      rw [if_neg (fun e => hv ((sameName_iff _ _).2 e)), if_neg (fun e => hv' ((sameName_iff _ _).2 e))]
    | account h hn =>
      obtain ⟨k, w, h1, rfl, rfl⟩ := (entry_iff _ _ _).1 h
      rw [classify_entry s k w h1, (nameOf_account _).2 hn]
    | counts h hn hk =>
      obtain ⟨k, w, h1, rfl, rfl⟩ := (entry_iff _ _ _).1 h
      rw [classify_entry s k w h1, (nameOf_cls _ _).2 hn]
      simp only
      rw [(counts_iff _ _).1 hk]
    | unreadable h hn hk =>
      obtain ⟨k, w, h1, rfl, rfl⟩ := (entry_iff _ _ _).1 h
      rw [classify_entry s k w h1, (nameOf_cls _ _).2 hn]
      simp only
      cases hp : parseCounts (trim w) with
      | none => rfl
      | some y => exact absurd ((counts_iff _ _).2 hp) (hk y)
    | field h hn =>
      obtain ⟨k, w, h1, rfl, rfl⟩ := (entry_iff _ _ _).1 h
      rw [classify_entry s k w h1, (nameOf_fld _ _).2 hn]
    | unknown h h2 h3 h4 h5 =>
      obtain ⟨k, w, h1, rfl, rfl⟩ := (entry_iff _ _ _).1 h
      rw [classify_entry s k w h1]
      cases hn : nameOf (lower (trim k)) with
      | status => exact absurd ((nameOf_status _).1 hn) h2
      | account => exact absurd ((nameOf_account _).1 hn) h3
      | cls c => exact absurd ((nameOf_cls _ _).1 hn) (h4 c)
      | fld f => exact absurd ((nameOf_fld _ _).1 hn) (h5 f)
      | unknown => rfl
  · rintro rfl
    cases ht : trim s with
    | nil =>
      have : classify s = .blank := by unfold classify; rw [ht]; rfl
      rw [this]
      exact .blank ((strips_trim _ _).2 ht.symm)
    | cons a b =>
      cases hs : splitOnce ':' (trim s) with
      | none =>
        have : classify s = .other := by unfold classify; rw [hs, ht]; rfl
        rw [this]
        exact .noColon ((strips_trim _ _).2 rfl) (by rw [ht]; simp) ((Registrar.splitOnce_none_iff _ _).1 hs)
      | some y =>
        obtain ⟨k, w⟩ := y
        have he : Entry s (trim k) (trim w) := (entry_iff _ _ _).2 ⟨k, w, hs, rfl, rfl⟩
        rw [classify_entry s k w hs]
        cases hn : nameOf (lower (trim k)) with
        | status =>
          have hn := (nameOf_status _).1 hn
          simp only
          split
          · rename_i h; exact .yes he hn ((sameName_iff _ _).2 h)
          · rename_i h1
            split
            · rename_i h; exact .no he hn ((sameName_iff _ _).2 h)
            · rename_i h2
              exact .wrong he hn (fun e => h1 ((sameName_iff _ _).1 e)) (fun e => h2 ((sameName_iff _ _).1 e))
        | account => exact .account he ((nameOf_account _).1 hn)
        | cls c =>
          have hn := (nameOf_cls _ _).1 hn
          simp only
          split
          · rename_i hk; exact .counts he hn ((counts_iff _ _).2 hk)
          · rename_i hk
            refine .unreadable he hn (fun k' hk' => ?_)
            rw [(counts_iff _ _).1 hk'] at hk
            cases hk
        | fld f => exact .field he ((nameOf_fld _ _).1 hn)
        | unknown =>
          exact .unknown he (fun e => by rw [(nameOf_status _).2 e] at hn; cases hn) (fun e => by rw [(nameOf_account _).2 e] at hn; cases hn)
            (fun c e => by rw [(nameOf_cls _ _).2 e] at hn; cases hn) (fun f e => by rw [(nameOf_fld _ _).2 e] at hn; cases hn)

theorem sayAll_iff (ss : List Str) (xs : List Line) : SayAll ss xs ↔ xs = ss.map classify := by
  constructor
  · intro h
    induction h with
    | nil => rfl
    | cons h _ ih => rw [List.map_cons, ← ih, (says_iff _ _).1 h]
  · rintro rfl
    induction ss with
    | nil => exact .nil
    | cons s ss ih => exact .cons ((says_iff _ _).2 rfl) ih

/-! ## The loop -/

/-- One turn, by what the line says. -/
def stepK (st : St) : Line → Option St
  | .blank =>
    match st.cur with
    | some h => (st.sum.addHeader h).map (fun s => { st with sum := s, cur := none })
    | none => some st
  | .other => some st
  | .status b => some { st with sum := { st.sum with waiting := b }, found := true }
  | .wrong => none
  | .account a => (st.sum.setAccount a).map (fun s => { st with sum := s })
  | .counts c k => some { st with sum := { st.sum with messages := st.sum.messages.set c k } }
  | .field f v => ((match st.cur with | some h => h | none => {}).withField f v).map (fun h => { st with cur := some h })

/-- There are only six classes: adding one never fails. -/
theorem addClass_eq (s : Summary) (c : Class) (k : Counts) : s.addClass c k = some { s with messages := s.messages.set c k } := by
  unfold Summary.addClass
  rw [if_neg]
  rintro ⟨_, h⟩
  have : s.messages.values.length ≤ Class.all.length := List.length_filterMap_le _ _
  have h6 : Class.all.length = 6 := rfl
  omega

theorem step_eq (st : St) (raw : Str) : step st raw = stepK st (classify raw) := by
  unfold step
  cases ht : (trim raw).isEmpty with
  | true =>
    have : classify raw = .blank := by unfold classify; rw [ht]; rfl
    rw [this]
    simp only [ht, if_true]
    rfl
  | false =>
    cases hs : splitOnce ':' (trim raw) with
    | none =>
      have : classify raw = .other := by unfold classify; rw [hs, ht]; rfl
      rw [this]
      simp only [ht, hs, Bool.false_eq_true, if_false]
      rfl
    | some y =>
      obtain ⟨n, v⟩ := y
      rw [classify_entry raw n v hs]
      simp only [ht, hs, Bool.false_eq_true, if_false]
      unfold nameOf
      by_cases h1 : lower (trim n) = "messages-waiting".toList
      · simp only [if_pos h1]
        cases eqIgnoreCase (trim v) "yes".toList <;> cases eqIgnoreCase (trim v) "no".toList <;> rfl
      · simp only [if_neg h1]
        by_cases h2 : lower (trim n) = "message-account".toList
        · simp only [if_pos h2]; rfl
        · simp only [if_neg h2]
          by_cases h3 : "-message".toList.isSuffixOf (lower (trim n)) = true
          · simp only [if_pos h3]
            cases Class.fromName (lower (trim n)) with
            | none => rfl
            | some c =>
              simp only
              cases parseCounts (trim v) with
              | none => rfl
              | some k => simp only [addClass_eq, Option.map_some]; rfl
          · simp only [if_neg h3]
            cases Field.fromName (lower (trim n)) with
            | none => rfl
            | some f => rfl

def runK : List Line → St → Option St
  | [], st => some st
  | l :: ls, st => (stepK st l).bind (runK ls)

theorem run_eq (ss : List Str) (st : St) : run ss st = runK (ss.map classify) st := by
  induction ss generalizing st with
  | nil => rfl
  | cons s ss ih =>
    rw [run, List.map_cons, runK, step_eq]
    congr 1
    funext st'
    exact ih st'

/-- A message whose first lines were read before. -/
def mergeHeader (cur : Option MsgHeader) (g : List Line) : Option MsgHeader :=
  if cur.isNone && (fieldsOf g).isEmpty then none
  else
    let h : MsgHeader := match cur with | some h => h | none => {}
    some ⟨(valuesOf .to g).getLast?.or h.to, (valuesOf .from g).getLast?.or h.from, (valuesOf .subject g).getLast?.or h.subject,
      (valuesOf .date g).getLast?.or h.date, (valuesOf .priority g).getLast?.or h.priority, (valuesOf .messageId g).getLast?.or h.messageId,
      (valuesOf .messageContext g).getLast?.or h.messageContext⟩

def headersFrom (cur : Option MsgHeader) (ls : List Line) : List MsgHeader :=
  match groups ls with
  | [] => []
  | g :: gs => (mergeHeader cur g).toList ++ gs.filterMap headerOf

theorem headersFrom_none (ls : List Line) : headersFrom none ls = (groups ls).filterMap headerOf := by
  unfold headersFrom
  cases groups ls with
  | nil => rfl
  | cons g gs =>
    have : mergeHeader none g = headerOf g := by
      unfold mergeHeader headerOf
      simp
    simp only [this, List.filterMap_cons]
    cases headerOf g <;> rfl

theorem groups_ne (ls : List Line) : groups ls ≠ [] := by
  cases ls with
  | nil => simp [groups]
  | cons x t =>
    unfold groups
    cases x <;> simp <;> (split <;> simp)

theorem groups_cons (x : Line) (t : List Line) (hx : x ≠ .blank) : ∃ g gs, groups t = g :: gs ∧ groups (x :: t) = (x :: g) :: gs := by
  cases hg : groups t with
  | nil => exact absurd hg (groups_ne t)
  | cons g gs =>
    refine ⟨g, gs, rfl, ?_⟩
    cases x <;> first | exact absurd rfl hx | (rw [groups, hg] <;> simp)

theorem getLast_cons_or {α : Type} (a : α) (l : List α) (o : Option α) : (a :: l).getLast?.or o = l.getLast?.or (some a) := by
  cases l with
  | nil => rfl
  | cons b l =>
    rw [List.getLast?_cons_cons]
    cases h : (b :: l).getLast? with
    | none => simp at h
    | some x => rfl

theorem get_set (m : Messages) (c d : Class) (k : Counts) : (m.set c k).get d = if c = d then some k else m.get d := by
  cases c <;> cases d <;> rfl

theorem headersFrom_blank (cur : Option MsgHeader) (ls : List Line) : headersFrom cur (.blank :: ls) = cur.toList ++ headersFrom none ls := by
  rw [headersFrom_none]
  unfold headersFrom
  rw [groups]
  simp only
  congr 1
  cases cur <;> simp [mergeHeader, fieldsOf, valuesOf]

theorem headersFrom_same (cur : Option MsgHeader) (x : Line) (ls : List Line) (hx : x ≠ .blank) (hf : ∀ f v, x ≠ .field f v) :
    headersFrom cur (x :: ls) = headersFrom cur ls := by
  obtain ⟨g, gs, h1, h2⟩ := groups_cons x ls hx
  unfold headersFrom
  rw [h1, h2]
  have e : mergeHeader cur (x :: g) = mergeHeader cur g := by
    cases x <;> first | exact absurd rfl (hf _ _) | simp [mergeHeader, fieldsOf, valuesOf]
  simp only [e]

theorem headersFrom_field (cur : Option MsgHeader) (f : Field) (v : Str) (h : MsgHeader) (ls : List Line)
    (hh : (match cur with | some h => h | none => {} : MsgHeader).withField f v = some h) :
    headersFrom cur (.field f v :: ls) = headersFrom (some h) ls := by
  obtain ⟨g, gs, h1, h2⟩ := groups_cons (.field f v) ls nofun
  unfold headersFrom
  rw [h1, h2]
  have e : mergeHeader cur (.field f v :: g) = mergeHeader (some h) g := by
    unfold MsgHeader.withField at hh
    split at hh
    · cases hh
    · cases hh
      have fe : fieldsOf (.field f v :: g) = (f, v) :: fieldsOf g := rfl
      have ve : ∀ f' o, (valuesOf f' (.field f v :: g)).getLast?.or o = (valuesOf f' g).getLast?.or (if f = f' then some v else o) := by
        intro f' o
        unfold valuesOf
        by_cases hf : f = f'
        · simp only [List.filterMap_cons, if_pos hf]
          rw [getLast_cons_or]
        · simp only [List.filterMap_cons, if_neg hf]
      unfold mergeHeader
      simp only [fe, ve, List.isEmpty_cons, Bool.and_false, Bool.false_eq_true, if_false, Option.isNone_some, Bool.false_and]
      cases cur <;> cases f <;> rfl
  simp only [e]

theorem withField_some (h : MsgHeader) (f : Field) (v : Str) : (∃ h', h.withField f v = some h') ↔ Good 1024 v := by
  rw [← validHeaderValue_iff]
  unfold MsgHeader.withField
  cases validHeaderValue v <;> simp

theorem loop_iff (ls : List Line) (st : St) (s : Summary) (hlen : st.sum.headers.length ≤ 50) :
    (runK ls st).bind finish = some s ↔
      Line.wrong ∉ ls ∧ (∀ a ∈ accounts ls, Good 512 a) ∧ (∀ x ∈ fieldsOf ls, Good 1024 x.2) ∧
      (statuses ls).getLast?.or (if st.found then some st.sum.waiting else none) = some s.waiting ∧
      s.account = (accounts ls).getLast?.or st.sum.account ∧
      (∀ c, s.messages.get c = (countsOf c ls).getLast?.or (st.sum.messages.get c)) ∧
      s.headers = st.sum.headers ++ headersFrom st.cur ls ∧ s.headers.length ≤ 50 := by
  induction ls generalizing st with
  | nil =>
    obtain ⟨⟨w, a, m, hs⟩, cur, found⟩ := st
    obtain ⟨w', a', m', hs'⟩ := s
    simp only at hlen
    have em : (∀ c, m'.get c = m.get c) ↔ m = m' := by
      constructor
      · intro h
        cases m; cases m'
        have h1 := h .voice; have h2 := h .fax; have h3 := h .pager; have h4 := h .multimedia; have h5 := h .text; have h6 := h .none
        simp only [Messages.get] at h1 h2 h3 h4 h5 h6
        simp [h1, h2, h3, h4, h5, h6]
      · rintro rfl _; rfl
    have eh : headersFrom cur [] = cur.toList := by cases cur <;> simp [headersFrom, groups, mergeHeader, fieldsOf, valuesOf]
    simp only [runK, Option.bind_some, accounts, fieldsOf, statuses, countsOf, List.filterMap_nil, List.not_mem_nil, not_false_eq_true,
      List.getLast?_nil, Option.none_or, false_implies, implies_true, true_and, eh, em]
    unfold finish
    cases cur with
    | none =>
      cases found <;> simp
      rintro rfl
      constructor
      · rintro ⟨rfl, rfl, rfl⟩; exact ⟨rfl, rfl, rfl, hlen⟩
      · rintro ⟨rfl, rfl, rfl, _⟩; exact ⟨rfl, rfl, rfl⟩
    | some h =>
      simp only [Summary.addHeader, Option.toList_some]
      by_cases hl : hs.length ≥ 50
      · rw [if_pos hl]
        refine ⟨nofun, ?_⟩
        rintro ⟨_, _, _, e, h5⟩
        rw [e, List.length_append] at h5
        simp at h5
        omega
      · rw [if_neg hl]
        cases found <;> simp
        rintro rfl
        constructor
        · rintro ⟨rfl, rfl, rfl⟩; exact ⟨rfl, rfl, rfl, by simp; omega⟩
        · rintro ⟨rfl, rfl, rfl, _⟩; exact ⟨rfl, rfl, rfl⟩
  | cons x ls ih =>
    rw [runK]
    cases x with
    | blank =>
      have e1 : accounts (.blank :: ls) = accounts ls := rfl
      have e2 : fieldsOf (.blank :: ls) = fieldsOf ls := rfl
      have e3 : statuses (.blank :: ls) = statuses ls := rfl
      have e4 : ∀ c, countsOf c (.blank :: ls) = countsOf c ls := fun _ => rfl
      have e5 : Line.wrong ∉ (Line.blank :: ls) ↔ Line.wrong ∉ ls := by simp
      rw [e1, e2, e3, headersFrom_blank, e5]
      simp only [e4]
      cases hc : st.cur with
      | none =>
        simp only [stepK, hc, Option.bind_some]
        rw [ih st hlen, hc]
        rfl
      | some h =>
        simp only [stepK, hc, Summary.addHeader]
        by_cases hl : st.sum.headers.length ≥ 50
        · rw [if_pos hl]
          refine ⟨nofun, ?_⟩
          rintro ⟨_, _, _, _, _, _, e, h5⟩
          rw [e, List.length_append] at h5
          simp at h5
          omega
        · rw [if_neg hl]
          simp only [Option.map_some, Option.bind_some]
          rw [ih _ (by simp; omega)]
          simp only [Option.toList_some, List.append_assoc]
    | other =>
      simp only [stepK, Option.bind_some]
      rw [ih st hlen, headersFrom_same st.cur .other ls nofun nofun]
      have e5 : Line.wrong ∉ (Line.other :: ls) ↔ Line.wrong ∉ ls := by simp
      rw [e5]; rfl
    | status b =>
      simp only [stepK, Option.bind_some]
      rw [ih _ (by exact hlen), headersFrom_same st.cur (.status b) ls nofun nofun]
      have e3 : statuses (.status b :: ls) = b :: statuses ls := rfl
      have e5 : Line.wrong ∉ (Line.status b :: ls) ↔ Line.wrong ∉ ls := by simp
      rw [e5, e3, getLast_cons_or]
      rfl
    | wrong =>
      simp only [stepK, Option.bind_none]
      exact ⟨nofun, fun h => absurd (by simp) h.1⟩
    | account a =>
      simp only [stepK, Summary.setAccount]
      have e1 : accounts (.account a :: ls) = a :: accounts ls := rfl
      have e5 : Line.wrong ∉ (Line.account a :: ls) ↔ Line.wrong ∉ ls := by simp
      rw [headersFrom_same st.cur (.account a) ls nofun nofun, e1, e5, getLast_cons_or, List.forall_mem_cons, ← validAccount_iff]
      cases hv : validAccount a with
      | false => simp
      | true =>
        simp only [Bool.not_true, Bool.false_eq_true, if_false, Option.map_some, Option.bind_some, true_and]
        rw [ih _ (by exact hlen)]
        rfl
    | counts c k =>
      simp only [stepK, Option.bind_some]
      rw [ih _ (by exact hlen), headersFrom_same st.cur (.counts c k) ls nofun nofun]
      have e5 : Line.wrong ∉ (Line.counts c k :: ls) ↔ Line.wrong ∉ ls := by simp
      have e4 : ∀ d, (countsOf d (.counts c k :: ls)).getLast?.or (st.sum.messages.get d) =
          (countsOf d ls).getLast?.or ((st.sum.messages.set c k).get d) := by
        intro d
        rw [get_set]
        unfold countsOf
        by_cases h : c = d
        · simp only [List.filterMap_cons, if_pos h]
          rw [getLast_cons_or]
        · simp only [List.filterMap_cons, if_neg h]
      rw [e5]
      simp only [e4]
      rfl
    | field f v =>
      have e5 : Line.wrong ∉ (Line.field f v :: ls) ↔ Line.wrong ∉ ls := by simp
      have e2 : fieldsOf (.field f v :: ls) = (f, v) :: fieldsOf ls := rfl
      rw [e5, e2, List.forall_mem_cons]
      simp only [stepK]
      cases hw : (match st.cur with | some h => h | none => {} : MsgHeader).withField f v with
      | none =>
        have : ¬ Good 1024 v := by
          rw [← withField_some (match st.cur with | some h => h | none => {} : MsgHeader) f v, hw]
          simp
        simp [this]
      | some h =>
        have : Good 1024 v := by
          rw [← withField_some (match st.cur with | some h => h | none => {} : MsgHeader) f v, hw]
          exact ⟨_, rfl⟩
        simp only [Option.map_some, Option.bind_some]
        rw [ih _ (by exact hlen), headersFrom_field st.cur f v h ls hw]
        simp only [this, true_and]
        rfl

/-- **C139.** A body is read as a message summary exactly as described: of the lines of one kind the last one counts, a message is described
by the lines between blank lines. -/
theorem C139_parse (body : Str) (s : Summary) : parse body = some s ↔ Reads body s := by
  unfold parse Reads
  by_cases hl : utf8Len body > 102400
  · rw [if_pos hl]; exact ⟨nofun, fun h => by omega⟩
  · rw [if_neg hl, run_eq, loop_iff _ _ _ (by simp)]
    simp only [Bool.false_eq_true, if_false, Option.or_none, List.nil_append, headersFrom_none]
    constructor
    · rintro ⟨h1, h2, h3, h4, h5, h6, h7, h8⟩
      refine ⟨by omega, _, _, (pieces_iff _ _ _).2 rfl, (sayAll_iff _ _).2 rfl, h1, h2, h3, h4, h5, fun c => ?_, h7, h8⟩
      rw [h6 c]; cases c <;> simp [Messages.get]
    · rintro ⟨_, ps, ls, h1, h2, h3⟩
      rw [pieces_iff] at h1
      rw [sayAll_iff] at h2
      subst h1; subst h2
      refine ⟨h3.right, h3.accountsGood, h3.fieldsGood, h3.waiting, h3.account, fun c => ?_, h3.headers, h3.few⟩
      rw [h3.counts c]; cases c <;> simp [Messages.get]

end Siphon.Mwi
