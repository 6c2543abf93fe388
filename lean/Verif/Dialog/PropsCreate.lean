import Verif.Dialog.CreateSpec
import Verif.Dialog.PropsMatch
import Verif.Dialog.PropsTimer
import Verif.Dialog.Refresh
import Verif.Auth.LemmasText
set_option linter.unusedSimpArgs false
/-!
# New dialogs and their updates: C90, C91
-/
namespace Siphon.Dlg
open Spec TextSpec HdrSpec

/-! ## Addresses -/

theorem splitOnce_none_mem {c : Char} {s : Str} (h : splitOnce c s = none) : c ∉ s := by
  intro hm
  induction s with
  | nil => cases hm
  | cons x s ih =>
    unfold splitOnce at h
    split at h
    · cases h
    · rename_i hx
      rw [Option.map_eq_none_iff] at h
      rcases List.mem_cons.1 hm with rfl | hm
      · simp at hx
      · exact ih h hm

theorem addrText_iff (v s : Str) : AddrText v s ↔
    (match splitOnce '<' (trim v) with
      | some (_, rest) => (splitOnce '>' rest).map (fun p => trim p.1)
      | none => (splitChar ';' (trim v)).head?.map trim) = some s := by
  constructor
  · intro h
    cases h with
    | @bracketed a x b _ h1 h2 h3 h4 =>
      rw [strips_trim] at h1 h4
      rw [← h1, show a ++ '<' :: x ++ '>' :: b = a ++ '<' :: (x ++ '>' :: b) by simp, splitOnce_append _ _ _ h2]
      simp only
      rw [splitOnce_append _ _ _ h3, h4]
      rfl
    | @bare t p ps _ h1 h2 h3 h4 =>
      rw [strips_trim] at h1 h4
      rw [← h1, splitOnce_none _ _ h2]
      simp only
      rw [← (pieces_iff _ _ _).1 h3, h4]
      rfl
  · intro h
    split at h
    · rename_i a rest hs
      obtain ⟨h1, h2⟩ := (Auth.splitOnce_some_iff _ _ _ _).1 hs
      cases hx : splitOnce '>' rest with
      | none => rw [hx] at h; cases h
      | some p =>
        obtain ⟨x, b⟩ := p
        obtain ⟨h3, h4⟩ := (Auth.splitOnce_some_iff _ _ _ _).1 hx
        rw [hx] at h
        simp only [Option.map_some, Option.some.injEq] at h
        refine .bracketed (a := a) (x := x) (b := b) ?_ h2 h4 ((strips_trim _ _).2 h.symm)
        rw [strips_trim, h1, h3]
        simp
    · rename_i hs
      cases hp : splitChar ';' (trim v) with
      | nil => rw [hp] at h; cases h
      | cons p ps =>
        rw [hp] at h
        simp only [List.head?_cons, Option.map_some, Option.some.injEq] at h
        refine .bare ((strips_trim _ _).2 rfl) ?_ ((pieces_iff _ _ _).2 hp.symm) ((strips_trim _ _).2 h.symm)
        exact splitOnce_none_mem hs

theorem addrUri_iff (v : Str) (u : SipUri) : AddrUri v u ↔ parseUriFromHeader v = some u := by
  unfold AddrUri parseUriFromHeader
  simp only [addrText_iff]
  cases hs : splitOnce '<' (trim v) with
  | none =>
    simp only
    cases hx : splitChar ';' (trim v) <;> simp
  | some p =>
    obtain ⟨a, rest⟩ := p
    simp only
    cases hx : splitOnce '>' rest <;> simp

theorem addrUri_none (v : Str) : (∀ u, ¬ AddrUri v u) ↔ parseUriFromHeader v = none := by
  simp only [addrUri_iff]
  cases parseUriFromHeader v <;> simp

/-! ## Values between commas -/

theorem level_snoc (s : Str) (c : Char) :
    level (s ++ [c]) = if c = '<' then level s + 1 else if c = '>' then level s - 1 else level s := by
  unfold level
  rw [List.foldl_append]
  rfl

theorem count_snoc (s : Str) (c : Char) :
    (s ++ [c]).count '"' = s.count '"' + (if c = '"' then 1 else 0) := by
  rw [List.count_append]
  congr 1
  by_cases h : c = '"' <;> simp [h, List.count_cons]

theorem noTop_snoc {s : Str} {c : Char} (h : NoTop s) (hc : c = ',' → ¬ Closed s) : NoTop (s ++ [c]) := by
  intro a b e
  rcases List.eq_nil_or_concat b with rfl | ⟨b', x, rfl⟩
  · have := List.append_inj' e rfl
    obtain ⟨rfl, h2⟩ := this
    simp only [List.cons.injEq, and_true] at h2
    exact hc h2
  · have e' : s ++ [c] = (a ++ ',' :: b') ++ [x] := by rw [e]; simp
    obtain ⟨rfl, _⟩ := List.append_inj' e' rfl
    exact h _ _ rfl

/-- The splitting loop keeps to the specification. -/
theorem splitValuesGo_spec : ∀ (s : Str) (q : Bool) (depth : Nat) (cur : Str), NoTop cur.reverse →
    (q = true ↔ cur.reverse.count '"' % 2 = 1) → depth = level cur.reverse →
    ∃ ps, TopPieces (cur.reverse ++ s) ps ∧ Cleaned ps (splitValuesGo s q depth cur)
  | [], q, depth, cur, hn, hq, hd => by
    refine ⟨[cur.reverse], ?_, ?_⟩
    · rw [List.append_nil]; exact .last hn
    · unfold splitValuesGo
      split
      · rename_i h
        exact .drop ((strips_trim _ _).2 (List.isEmpty_iff.1 h).symm) .nil
      · rename_i h
        exact .keep ((strips_trim _ _).2 rfl) (fun e => h (by rw [e]; rfl)) .nil
  | ch :: t, q, depth, cur, hn, hq, hd => by
    have step : ∀ (q' : Bool) (d' : Nat), (ch = ',' → ¬ Closed cur.reverse) →
        (q' = true ↔ (cur.reverse ++ [ch]).count '"' % 2 = 1) → d' = level (cur.reverse ++ [ch]) →
        ∃ ps, TopPieces (cur.reverse ++ ch :: t) ps ∧ Cleaned ps (splitValuesGo t q' d' (ch :: cur)) := by
      intro q' d' h1 h2 h3
      have e : (ch :: cur).reverse = cur.reverse ++ [ch] := by simp
      obtain ⟨ps, hp, hc⟩ := splitValuesGo_spec t q' d' (ch :: cur) (by rw [e]; exact noTop_snoc hn h1)
        (by rw [e]; exact h2) (by rw [e]; exact h3)
      refine ⟨ps, ?_, hc⟩
      rw [e] at hp
      simpa using hp
    unfold splitValuesGo
    split
    · rename_i h
      refine step _ _ (by rw [h]; intro hh; cases hh) ?_ ?_
      · rw [count_snoc, if_pos h]
        cases q
        · simp only [Bool.not_false, true_iff]
          simp only [Bool.false_eq_true, false_iff] at hq
          omega
        · simp only [Bool.not_true, Bool.false_eq_true, false_iff]
          simp only [true_iff] at hq
          omega
      · rw [level_snoc, if_neg (by rw [h]; decide), if_neg (by rw [h]; decide)]; exact hd
    · rename_i hquo
      have hcount : (q = true ↔ (cur.reverse ++ [ch]).count '"' % 2 = 1) := by
        rw [count_snoc, if_neg hquo, Nat.add_zero]; exact hq
      split
      · rename_i h
        refine step _ _ (by rw [h]; intro hh; cases hh) hcount ?_
        rw [level_snoc, if_pos h, hd]
      · rename_i hlt
        split
        · rename_i h
          refine step _ _ (by rw [h]; intro hh; cases hh) hcount ?_
          rw [level_snoc, if_neg hlt, if_pos h, hd]
        · rename_i hgt
          split
          · rename_i h
            simp only [Bool.and_eq_true, decide_eq_true_eq, Bool.not_eq_true', beq_iff_eq] at h
            obtain ⟨⟨h1, h2⟩, h3⟩ := h
            have hcl : Closed cur.reverse := by
              refine ⟨?_, by rw [← hd]; exact h3⟩
              have : ¬ cur.reverse.count '"' % 2 = 1 := by rw [← hq, h2]; decide
              omega
            obtain ⟨ps, hp, hc⟩ := splitValuesGo_spec t q depth [] (by intro a b e; simp at e)
              (by rw [h2]; simp) (by rw [h3]; rfl)
            refine ⟨cur.reverse :: ps, ?_, ?_⟩
            · rw [h1]; exact .cons hn hcl (by simpa using hp)
            · split
              · rename_i he
                exact .drop ((strips_trim _ _).2 (List.isEmpty_iff.1 he).symm) hc
              · rename_i he
                exact .keep ((strips_trim _ _).2 rfl) (fun e => he (by rw [e]; rfl)) hc
          · rename_i h
            refine step _ _ ?_ hcount ?_
            · rintro rfl ⟨c1, c2⟩
              apply h
              have : q = false := by
                cases q
                · rfl
                · have := hq.1 rfl; omega
              rw [this, hd, c2]; rfl
            · rw [level_snoc, if_neg hlt, if_neg hgt]; exact hd

theorem noTop_le {p p' r r' : Str} (e : p ++ ',' :: r = p' ++ ',' :: r') (hc : Closed p) (hn : NoTop p') (h : ¬ p = p') :
    p'.length < p.length := by
  refine Classical.byContradiction fun hl => ?_
  have hle : p.length ≤ p'.length := by omega
  have h1 : p <+: p' := by
    refine List.prefix_of_prefix_length_le (l₃ := p ++ ',' :: r) (List.prefix_append _ _) ?_ hle
    rw [e]; exact List.prefix_append _ _
  obtain ⟨x, rfl⟩ := h1
  cases x with
  | nil => simp at h
  | cons c x =>
    rw [List.append_assoc] at e
    have := List.append_cancel_left e
    simp only [List.cons_append, List.cons.injEq] at this
    obtain ⟨rfl, _⟩ := this
    exact hn _ _ rfl hc

theorem topPieces_unique {v : Str} {ps qs : List Str} (h : TopPieces v ps) (h' : TopPieces v qs) : ps = qs := by
  induction h generalizing qs with
  | last hn =>
    cases h' with
    | last _ => rfl
    | cons h1 h2 h3 => exact absurd h2 (hn _ _ rfl)
  | @cons p rest ps hn hc hr ih =>
    generalize hw : p ++ ',' :: rest = w at h'
    cases h' with
    | last h1 => exact absurd hc (h1 _ _ hw.symm)
    | @cons p' rest' ps' h1 h2 h3 =>
      have : p = p' := by
        refine Classical.byContradiction fun hne => ?_
        have l1 := noTop_le hw hc h1 hne
        have l2 := noTop_le hw.symm h2 hn (fun e => hne e.symm)
        omega
      subst this
      have := List.append_cancel_left hw
      simp only [List.cons.injEq, true_and] at this
      subst this
      rw [ih h3]

theorem strips_fun {p a b : Str} (h : Strips isWs p a) (h' : Strips isWs p b) : a = b := by
  rw [strips_trim] at h h'
  rw [h, h']

theorem cleaned_unique {ps es fs : List Str} (h : Cleaned ps es) (h' : Cleaned ps fs) : es = fs := by
  induction h generalizing fs with
  | nil => cases h'; rfl
  | keep h1 h2 _ ih =>
    cases h' with
    | keep g1 g2 g3 => rw [strips_fun h1 g1, ih g3]
    | drop g1 g2 => exact absurd (strips_fun h1 g1) h2
  | drop h1 _ ih =>
    cases h' with
    | keep g1 g2 g3 => exact absurd (strips_fun g1 h1) g2
    | drop g1 g2 => exact ih g2

theorem splitValues_iff (v : Str) (es : List Str) : (∃ ps, TopPieces v ps ∧ Cleaned ps es) ↔ splitValues v = es := by
  obtain ⟨ps, h1, h2⟩ := splitValuesGo_spec v false 0 [] (by intro a b e; simp at e) (by simp) rfl
  constructor
  · rintro ⟨qs, g1, g2⟩
    have h1 : TopPieces v ps := by simpa using h1
    have := topPieces_unique h1 g1
    subst this
    exact cleaned_unique h2 g2
  · rintro rfl
    exact ⟨ps, by simpa using h1, h2⟩

theorem values_iff : ∀ (hv vs : List Str), Values hv vs ↔ hv.flatMap splitValues = vs
  | [], vs => by
    constructor
    · intro h; cases h; rfl
    · rintro rfl; exact .nil
  | v :: hv, vs => by
    constructor
    · rintro (_ | ⟨h1, h2, h3⟩)
      rw [List.flatMap_cons, (splitValues_iff _ _).1 ⟨_, h1, h2⟩, (values_iff _ _).1 h3]
    · rintro rfl
      obtain ⟨ps, h1, h2⟩ := (splitValues_iff v _).2 rfl
      rw [List.flatMap_cons]
      exact .cons h1 h2 ((values_iff _ _).2 rfl)

/-! ## Route sets -/

theorem urisOf_iff : ∀ (vs : List Str) (us : List SipUri), UrisOf vs us ↔ vs.filterMap parseUriFromHeader = us
  | [], us => by
    constructor
    · intro h; cases h; rfl
    · rintro rfl; exact .nil
  | v :: vs, us => by
    cases hp : parseUriFromHeader v with
    | none =>
      rw [List.filterMap_cons_none hp, ← urisOf_iff vs us]
      constructor
      · rintro (_ | ⟨h1, h2⟩ | ⟨h1, h2⟩)
        · rw [addrUri_iff, hp] at h1; cases h1
        · exact h2
      · exact .skip ((addrUri_none v).2 hp)
    | some u =>
      rw [List.filterMap_cons_some hp]
      constructor
      · rintro (_ | ⟨h1, h2⟩ | ⟨h1, h2⟩)
        · rw [addrUri_iff, hp] at h1
          cases h1
          rw [(urisOf_iff _ _).1 h2]
        · exact absurd ((addrUri_iff _ _).2 hp) (h1 u)
      · rintro rfl
        exact .take ((addrUri_iff _ _).2 hp) ((urisOf_iff _ _).2 rfl)

theorem shortUri_iff (u : SipUri) : ShortUri u ↔ validUri u = true := by
  unfold ShortUri validUri optLen MAX_URI_LENGTH
  rw [decide_eq_true_eq]
  cases hu : u.user <;> cases hp : u.port <;> simp <;> omega

theorem collectRoutes_iff : ∀ (vs : List Str) (acc us : List SipUri),
    collectRoutes vs acc = .ok us ↔ us = acc ++ vs.filterMap parseUriFromHeader ∧
      (∀ u ∈ vs.filterMap parseUriFromHeader, validUri u = true) ∧
      ∀ pre v post, vs = pre ++ v :: post → acc.length + (pre.filterMap parseUriFromHeader).length < 50
  | [], acc, us => by
    unfold collectRoutes
    simp
    exact eq_comm
  | v :: vs, acc, us => by
    have shift : ∀ k : Nat, (∀ pre w post, v :: vs = pre ++ w :: post →
        acc.length + (pre.filterMap parseUriFromHeader).length < 50) ↔
        acc.length < 50 ∧ ∀ pre w post, vs = pre ++ w :: post →
          acc.length + ((v :: pre).filterMap parseUriFromHeader).length < 50 := by
      intro _
      constructor
      · intro h
        exact ⟨by have := h [] v vs rfl; simpa using this, fun pre w post e => h (v :: pre) w post (by rw [e]; rfl)⟩
      · rintro ⟨h1, h2⟩ pre w post e
        cases pre with
        | nil => simpa using h1
        | cons x pre =>
          simp only [List.cons_append, List.cons.injEq] at e
          obtain ⟨rfl, e⟩ := e
          exact h2 pre w post e
    unfold collectRoutes MAX_ROUTE_SET_SIZE
    rw [shift 0]
    split
    · rename_i h
      constructor
      · intro hh; cases hh
      · rintro ⟨_, _, h1, _⟩; omega
    · rename_i h
      cases hp : parseUriFromHeader v with
      | none =>
        simp only [List.filterMap_cons_none hp]
        rw [collectRoutes_iff vs acc us]
        constructor
        · rintro ⟨a, b, c⟩; exact ⟨a, b, by omega, c⟩
        · rintro ⟨a, b, _, c⟩; exact ⟨a, b, c⟩
      | some u =>
        simp only [List.filterMap_cons_some hp]
        split
        · rename_i hv
          rw [collectRoutes_iff vs (acc ++ [u]) us]
          constructor
          · rintro ⟨a, b, c⟩
            refine ⟨by rw [a]; simp, ?_, by omega, ?_⟩
            · intro w hw
              rcases List.mem_cons.1 hw with rfl | hw
              · exact hv
              · exact b w hw
            · intro pre w post e
              have := c pre w post e
              simp only [List.length_append, List.length_cons, List.length_nil] at this ⊢
              omega
          · rintro ⟨a, b, _, c⟩
            refine ⟨by rw [a]; simp, fun w hw => b w (List.mem_cons_of_mem _ hw), ?_⟩
            intro pre w post e
            have := c pre w post e
            simp only [List.length_append, List.length_cons, List.length_nil] at this ⊢
            omega
        · rename_i hv
          constructor
          · intro hh; cases hh
          · rintro ⟨_, b, _⟩
            exact absurd (b u (List.mem_cons_self ..)) hv

theorem routes_iff (hs : Headers) (us : List SipUri) : Routes hs us ↔
    collectRoutes ((hs.getAll "Record-Route".toList).flatMap splitValues) [] = .ok us := by
  rw [collectRoutes_iff]
  unfold Routes
  constructor
  · rintro ⟨hv, vs, h1, h2, h3, h4, h5⟩
    rw [selects_iff] at h1
    rw [values_iff] at h2
    rw [urisOf_iff] at h3
    subst h1 h2 h3
    refine ⟨rfl, fun u hu => (shortUri_iff u).1 (h4 u hu), ?_⟩
    intro pre v post e
    have := h5 pre v post _ e ((urisOf_iff _ _).2 rfl)
    simpa using this
  · rintro ⟨h1, h2, h3⟩
    rw [List.nil_append] at h1
    subst h1
    refine ⟨_, _, (selects_iff _ _ _).2 rfl, (values_iff _ _).2 rfl, (urisOf_iff _ _).2 rfl,
      fun u hu => (shortUri_iff u).2 (h2 u hu), ?_⟩
    intro pre v post early e he
    rw [urisOf_iff] at he
    subst he
    have := h3 pre v post e
    simpa using this

theorem buildRouteSet_iff (hs : Headers) (rev : Bool) (rs : List SipUri) :
    buildRouteSet hs rev = .ok rs ↔ ∃ us, Routes hs us ∧ rs = if rev then us.reverse else us := by
  unfold buildRouteSet
  simp only [routes_iff]
  split
  · rename_i e he
    constructor
    · intro h; cases h
    · rintro ⟨us, h, _⟩; rw [he] at h; cases h
  · rename_i l hl
    constructor
    · intro h; cases h; exact ⟨l, hl, rfl⟩
    · rintro ⟨us, h, rfl⟩
      rw [hl] at h
      cases h
      rfl

theorem routes_short {hs : Headers} {us : List SipUri} (h : Routes hs us) : us.length ≤ 50 ∧ ∀ u ∈ us, ShortUri u := by
  obtain ⟨hv, vs, _, _, h3, h4, h5⟩ := h
  refine ⟨?_, h4⟩
  rcases List.eq_nil_or_concat vs with rfl | ⟨pre, v, rfl⟩
  · cases h3; simp
  · rw [List.concat_eq_append] at *
    rw [urisOf_iff, List.filterMap_append] at h3
    have := h5 pre v [] _ rfl ((urisOf_iff _ _).2 rfl)
    subst h3
    rw [List.length_append]
    have : ([v].filterMap parseUriFromHeader).length ≤ [v].length := List.length_filterMap_le ..
    simp only [List.length_cons, List.length_nil] at this
    omega

/-! ## Targets and timers -/

theorem contactOf_iff (hs : Headers) (u : SipUri) : ContactOf hs u ↔ contactUri hs = some u := by
  unfold ContactOf contactUri
  simp only [first_iff, addrUri_iff]
  cases hs.get "Contact".toList <;> simp

theorem targetOf_iff (hs : Headers) (other u : SipUri) : TargetOf hs other u ↔ targetOr (contactUri hs) other = u := by
  unfold TargetOf targetOr
  simp only [contactOf_iff]
  cases contactUri hs <;> simp [eq_comm]

theorem sessionTimer_iff (hs : Headers) (n : Nat) (role : Option Role) :
    sessionTimer hs = some { delta := n, refresher := role } ↔ Asks hs n role := by
  rw [asks_iff]
  unfold sessionTimer
  cases hs.get "Session-Expires".toList <;> simp

theorem timerOf_iff (hs : Headers) (n : Option Nat) (role : Option Role) : TimerOf hs n role ↔
    (n = (sessionTimer hs).map (·.delta)) ∧ role = (sessionTimer hs).bind (·.refresher) := by
  unfold TimerOf
  simp only [← sessionTimer_iff]
  cases h : sessionTimer hs with
  | none => simp
  | some se =>
    obtain ⟨a, b⟩ := se
    simp only [Option.some.injEq, SessionExpires.mk.injEq, Option.map_some, Option.bind_some]
    constructor
    · rintro (⟨k, rfl, rfl, rfl⟩ | ⟨h1, _⟩)
      · exact ⟨rfl, rfl⟩
      · exact absurd ⟨rfl, rfl⟩ (h1 a b)
    · rintro ⟨rfl, rfl⟩
      exact .inl ⟨a, rfl, rfl, rfl⟩

theorem timer_range {hs : Headers} {se : SessionExpires} (h : sessionTimer hs = some se) :
    90 ≤ se.delta ∧ se.delta ≤ 86400 := by
  obtain ⟨v, _, _, _, _, _, _, _, _, _, _, h1, h2, _⟩ := (sessionTimer_iff hs se.delta se.refresher).1 h
  exact ⟨h1, h2⟩

theorem stateOf_iff (code : Nat) (st : DState) : stateOf code = some st ↔
    (100 ≤ code ∧ code ≤ 199 ∧ st = .early) ∨ (200 ≤ code ∧ code ≤ 299 ∧ st = .confirmed) := by
  unfold stateOf
  split
  · rename_i h
    simp only [Option.some.injEq]
    constructor
    · rintro rfl; exact .inl ⟨h.1, h.2, rfl⟩
    · rintro (⟨_, _, rfl⟩ | ⟨_, _, rfl⟩)
      · rfl
      · omega
  · split
    · rename_i h1 h
      simp only [Option.some.injEq]
      constructor
      · rintro rfl; exact .inr ⟨h.1, h.2, rfl⟩
      · rintro (⟨_, _, rfl⟩ | ⟨_, _, rfl⟩)
        · omega
        · rfl
    · constructor
      · intro h; cases h
      · rintro (⟨_, _, rfl⟩ | ⟨_, _, rfl⟩) <;> omega

theorem validateSE_ok {n : Nat} (h : 90 ≤ n ∧ n ≤ 86400) : validateSE n = .ok () := by
  unfold validateSE MIN_SESSION_EXPIRES MAX_SESSION_EXPIRES
  have : n % 4294967296 = n := Nat.mod_eq_of_lt (by omega)
  simp only [this]
  rw [if_neg (by omega), if_neg (by omega)]

theorem assemble_iff (id : DialogId) (st : DState) (target : SipUri) (routeHs cseqHs timerHs : Headers) (rev : Bool)
    (l r : SipUri) (isUac : Bool) (d : Dialog) :
    assemble id st target (buildRouteSet routeHs rev) (cseqNumber cseqHs) (sessionTimer timerHs) l r isUac = some d ↔
      ShortUri l ∧ ShortUri r ∧ ShortUri target ∧
      ∃ us n, Routes routeHs us ∧ CSeqOf cseqHs n ∧ 1 ≤ n ∧ n ≤ 2 ^ 31 - 1 ∧
        d = { id := id, state := st, remoteTarget := target, routeSet := if rev then us.reverse else us,
              localCSeq := if isUac then n else 0, remoteCSeq := if isUac then 0 else n, lastAck := none,
              localUri := l, remoteUri := r, secure := l.sips || r.sips,
              sessionExpires := (sessionTimer timerHs).map (·.delta),
              refresher := (sessionTimer timerHs).bind (·.refresher), isUac := isUac } := by
  unfold assemble
  simp only [shortUri_iff, ← cseqNumber_iff]
  split
  · rename_i h
    constructor
    · intro hh; cases hh
    · rintro ⟨h1, h2, h3, _⟩; simp [h1, h2, h3] at h
  · rename_i h
    simp only [Bool.or_eq_true, Bool.not_eq_true', not_or, Bool.not_eq_false] at h
    obtain ⟨⟨h1, h2⟩, h3⟩ := h
    simp only [h1, h2, h3, true_and]
    cases hr : buildRouteSet routeHs rev with
    | error e =>
      simp only
      constructor
      · intro hh; cases hh
      · rintro ⟨us, n, hu, _⟩
        have := (buildRouteSet_iff routeHs rev _).2 ⟨us, hu, rfl⟩
        rw [hr] at this; cases this
    | ok rs =>
      obtain ⟨us, hu, hrs⟩ := (buildRouteSet_iff routeHs rev rs).1 hr
      have huniq : ∀ vs, Routes routeHs vs → vs = us := by
        intro vs hv
        rw [routes_iff] at hv hu
        rw [hv] at hu
        cases hu; rfl
      have hval : validRouteSet rs = true := by
        obtain ⟨a, b⟩ := routes_short hu
        unfold validRouteSet MAX_ROUTE_SET_SIZE
        rw [Bool.and_eq_true, decide_eq_true_eq, List.all_eq_true]
        subst hrs
        cases rev
        · exact ⟨by simpa using a, fun u hm => (shortUri_iff u).1 (b u (by simpa using hm))⟩
        · exact ⟨by simpa using a, fun u hm => (shortUri_iff u).1 (b u (by simpa using hm))⟩
      simp only [hval, Bool.not_true, Bool.false_eq_true, if_false]
      cases hc : cseqNumber cseqHs with
      | none => simp
      | some n =>
        simp only
        unfold validateCSeq MAX_CSEQ_VALUE
        by_cases hn0 : n = 0
        · rw [if_pos hn0]
          constructor
          · intro hh; cases hh
          · rintro ⟨_, m, _, hm, h4, _⟩; cases hm; omega
        · rw [if_neg hn0]
          by_cases hn1 : n > 2147483647
          · rw [if_pos hn1]
            constructor
            · intro hh; cases hh
            · rintro ⟨_, m, _, hm, _, h5, _⟩; cases hm; omega
          · rw [if_neg hn1]
            cases ht : sessionTimer timerHs with
            | none =>
              simp only [Option.some.injEq, Option.map_none, Option.bind_none]
              constructor
              · rintro rfl
                exact ⟨us, n, hu, rfl, by omega, by omega, by rw [hrs]⟩
              · rintro ⟨vs, m, hv, hm, _, _, rfl⟩
                rw [huniq vs hv, ← hrs, hm]
            | some se =>
              simp only [validateSE_ok (timer_range ht), Option.some.injEq, Option.map_some, Option.bind_some]
              constructor
              · rintro rfl
                exact ⟨us, n, hu, rfl, by omega, by omega, by rw [hrs]⟩
              · rintro ⟨vs, m, hv, hm, _, _, rfl⟩
                rw [huniq vs hv, ← hrs, hm]

/-! ## C90: new dialogs -/

theorem records_iff (code : Nat) (peer answer : Headers) (l r : SipUri) (d : Dialog) :
    Records code peer answer l r d ↔ stateOf code = some d.state ∧ targetOr (contactUri peer) r = d.remoteTarget ∧
      (d.sessionExpires = (sessionTimer answer).map (·.delta) ∧ d.refresher = (sessionTimer answer).bind (·.refresher)) ∧
      d.localUri = l ∧ d.remoteUri = r ∧ (ShortUri l ∧ ShortUri r ∧ ShortUri d.remoteTarget) ∧
      d.secure = (l.sips || r.sips) ∧ d.lastAck = none := by
  have hsec : (d.secure = true ↔ l.sips = true ∨ r.sips = true) ↔ d.secure = (l.sips || r.sips) := by
    cases d.secure <;> cases l.sips <;> cases r.sips <;> simp
  constructor
  · rintro ⟨h1, h2, h3, h4, h5, h6, h7, h8⟩
    exact ⟨(stateOf_iff _ _).2 h1, (targetOf_iff _ _ _).1 h2, (timerOf_iff _ _ _).1 h3, h4, h5, h6, hsec.1 h7, h8⟩
  · rintro ⟨h1, h2, h3, h4, h5, h6, h7, h8⟩
    exact ⟨(stateOf_iff _ _).1 h1, (targetOf_iff _ _ _).2 h2, (timerOf_iff _ _ _).2 h3, h4, h5, h6, hsec.2 h7, h8⟩

/-- **C90.** The dialog a client makes from its request and a response: exactly when there is one (unless reading the
tags panics, C74), and all that it holds.  The identifier has the From tag as the own one; the route set is the
Record-Route of the response from bottom to top, the remote target its Contact, the own sequence number that of the
request. -/
theorem C90_uac (req : Request) (resp : Response) (l r : SipUri) (d : Dialog)
    (hp : Dialog.newUac req resp l r ≠ .panic) :
    Dialog.newUac req resp l r = .done (some d) ↔
      Names resp.headers d.id.callId d.id.localTag d.id.remoteTag ∧
      Records resp.code resp.headers resp.headers l r d ∧
      (∃ us, Routes resp.headers us ∧ d.routeSet = us.reverse) ∧
      CSeqOf req.headers d.localCSeq ∧ 1 ≤ d.localCSeq ∧ d.localCSeq ≤ 2 ^ 31 - 1 ∧ d.remoteCSeq = 0 ∧ d.isUac = true := by
  unfold Dialog.newUac at hp ⊢
  rw [records_iff]
  have hid : DialogId.fromResponseUac resp.headers = DialogId.fromRequest resp.headers := rfl
  rw [hid] at hp ⊢
  cases hi : DialogId.fromRequest resp.headers with
  | panic => rw [hi] at hp; simp at hp
  | done o =>
    cases o with
    | none =>
      simp only
      constructor
      · intro h; cases h
      · rintro ⟨h, _⟩; exact absurd h (fromRequest_none hi _ _ _)
    | some id =>
      have hn := fromRequest_some hi
      simp only
      cases hst : stateOf resp.code with
      | none =>
        constructor
        · intro h; cases h
        · rintro ⟨_, ⟨h, _⟩, _⟩; cases h
      | some st =>
        simp only [Run.done.injEq]
        rw [assemble_iff]
        constructor
        · rintro ⟨s1, s2, s3, us, n, h1, h2, h3, h4, rfl⟩
          exact ⟨hn, ⟨rfl, rfl, ⟨rfl, rfl⟩, rfl, rfl, ⟨s1, s2, s3⟩, rfl, rfl⟩, ⟨us, h1, rfl⟩, h2, h3, h4, rfl, rfl⟩
        · rintro ⟨g1, ⟨g2, g3, ⟨g4, g5⟩, g6, g7, ⟨s1, s2, s3⟩, g8, g9⟩, ⟨us, h1, g10⟩, h2, h3, h4, g11, g12⟩
          refine ⟨s1, s2, by rw [g3]; exact s3, us, d.localCSeq, h1, h2, h3, h4, ?_⟩
          obtain ⟨e1, e2, e3⟩ := names_unique hn g1
          obtain ⟨⟨c, lt, rt⟩, _, _, _, _, _, _, _, _, _, _, _, _⟩ := d
          simp only at *
          subst g6 g7 g8 g9 g10 g11 g12 g4 g5 g3
          simp only [Option.some.injEq] at g2
          subst g2
          obtain ⟨a, b, c⟩ := id
          simp only at e1 e2 e3
          subst e1 e2 e3
          rfl

/-- **C90.** The dialog a server makes from the request and its own response: the To tag is the own one, the route set
is the Record-Route of the request from top to bottom, the remote target its Contact, and the peer's sequence number
that of the request. -/
theorem C90_uas (req : Request) (resp : Response) (l r : SipUri) (d : Dialog)
    (hp : Dialog.newUas req resp l r ≠ .panic) :
    Dialog.newUas req resp l r = .done (some d) ↔
      Names resp.headers d.id.callId d.id.remoteTag d.id.localTag ∧
      Records resp.code req.headers resp.headers l r d ∧
      Routes req.headers d.routeSet ∧
      CSeqOf req.headers d.remoteCSeq ∧ 1 ≤ d.remoteCSeq ∧ d.remoteCSeq ≤ 2 ^ 31 - 1 ∧ d.localCSeq = 0 ∧ d.isUac = false := by
  unfold Dialog.newUas at hp ⊢
  rw [records_iff]
  cases hi : DialogId.fromResponseUas resp.headers with
  | panic => rw [hi] at hp; simp at hp
  | done o =>
    cases o with
    | none =>
      simp only
      constructor
      · intro h; cases h
      · rintro ⟨h, _⟩; exact absurd h (fromResponseUas_none hi _ _ _)
    | some id =>
      have hn := fromResponseUas_some hi
      simp only
      cases hst : stateOf resp.code with
      | none =>
        constructor
        · intro h; cases h
        · rintro ⟨_, ⟨h, _⟩, _⟩; cases h
      | some st =>
        simp only [Run.done.injEq]
        rw [assemble_iff]
        constructor
        · rintro ⟨s1, s2, s3, us, n, h1, h2, h3, h4, rfl⟩
          exact ⟨hn, ⟨rfl, rfl, ⟨rfl, rfl⟩, rfl, rfl, ⟨s1, s2, s3⟩, rfl, rfl⟩, h1, h2, h3, h4, rfl, rfl⟩
        · rintro ⟨g1, ⟨g2, g3, ⟨g4, g5⟩, g6, g7, ⟨s1, s2, s3⟩, g8, g9⟩, h1, h2, h3, h4, g11, g12⟩
          refine ⟨s1, s2, by rw [g3]; exact s3, d.routeSet, d.remoteCSeq, h1, h2, h3, h4, ?_⟩
          obtain ⟨e1, e2, e3⟩ := names_unique hn g1
          obtain ⟨⟨c, lt, rt⟩, _, _, _, _, _, _, _, _, _, _, _, _⟩ := d
          simp only at *
          subst g6 g7 g8 g9 g11 g12 g4 g5 g3
          simp only [Option.some.injEq] at g2
          subst g2
          obtain ⟨a, b, c⟩ := id
          simp only at e1 e2 e3
          subst e1 e2 e3
          rfl

/-- **C90.** An identifier is made by hand exactly if its three texts are not empty, have no control characters, and
fit: 256 bytes for the Call-ID, 128 for a tag. -/
theorem C90_id (c lt rt : Str) (i : DialogId) : DialogId.new c lt rt = .ok i ↔
    i = { callId := c, localTag := lt, remoteTag := rt } ∧ (c ≠ [] ∧ utf8Len c ≤ 256 ∧ ∀ x ∈ c, isControl x = false) ∧
    ∀ t ∈ [lt, rt], t ≠ [] ∧ utf8Len t ≤ 128 ∧ ∀ x ∈ t, isControl x = false := by
  have key : ∀ (s : Str) (n : Nat), (!s.isEmpty && decide (utf8Len s ≤ n) && !s.any isControl) = true ↔
      s ≠ [] ∧ utf8Len s ≤ n ∧ ∀ x ∈ s, isControl x = false := by
    intro s n
    simp only [Bool.and_eq_true, Bool.not_eq_true', decide_eq_true_eq, any_control, and_assoc]
    cases s <;> simp
  unfold DialogId.new validCallId validTag MAX_CALL_ID_LENGTH MAX_TAG_LENGTH
  simp only [List.mem_cons, List.not_mem_nil, or_false, forall_eq_or_imp, forall_eq, ← key]
  generalize (!c.isEmpty && decide (utf8Len c ≤ 256) && !c.any isControl) = b1
  generalize (!lt.isEmpty && decide (utf8Len lt ≤ 128) && !lt.any isControl) = b2
  generalize (!rt.isEmpty && decide (utf8Len rt ≤ 128) && !rt.any isControl) = b3
  cases b1 <;> cases b2 <;> cases b3 <;> simp
  exact eq_comm

/-- **C90, finding.** Messages are not checked in this way: a dialog is made from any tag and Call-ID, also an empty
one. -/
theorem C90_empty_tag (req : Request) (resp : Response) (l r : SipUri) (d : Dialog) (c : Str)
    (hp : Dialog.newUas req resp l r ≠ .panic) (hid : Names resp.headers c [] [])
    (h : Dialog.newUas req resp l r = .done (some d)) :
    d.id = { callId := c, localTag := [], remoteTag := [] } ∧ ∀ i, DialogId.new c [] [] ≠ .ok i := by
  obtain ⟨h1, _⟩ := (C90_uas req resp l r d hp).1 h
  obtain ⟨e1, e2, e3⟩ := names_unique h1 hid
  constructor
  · obtain ⟨⟨_, _, _⟩, _⟩ := d
    simp only at e1 e2 e3
    subst e1 e2 e3
    rfl
  · intro i hi
    obtain ⟨_, _, ht⟩ := (C90_id c [] [] i).1 hi
    exact (ht [] (by simp)).1 rfl

/-! ## C91: updates -/

/-- What a message of the peer does to the remote target and the session timer, and that it does nothing to the
identity of the dialog. -/
structure SameCall (d d' : Dialog) : Prop where
  id : d'.id = d.id
  localUri : d'.localUri = d.localUri
  remoteUri : d'.remoteUri = d.remoteUri
  secure : d'.secure = d.secure
  localCSeq : d'.localCSeq = d.localCSeq
  isUac : d'.isUac = d.isUac

theorem updTarget_eq (d : Dialog) (hs : Headers) : d.updTarget hs = { d with remoteTarget := targetOr (contactUri hs) d.remoteTarget } := by
  unfold Dialog.updTarget targetOr
  cases contactUri hs <;> rfl

/-- The refresher after a message with this session timer. -/
def newRole : Option SessionExpires → Option Role → Option Role
  | some se, _ => se.refresher
  | none, old => old

/-- **C91.** An accepted request moves the remote target to its Contact, if it has one, and sets the number of the
last request, or for an ACK of the last ACK; nothing else. -/
theorem C91_request (d d' : Dialog) (r : Request) (h : d.updateFromRequest r = (.ok (), d')) :
    SameCall d d' ∧ TargetOf r.headers d.remoteTarget d'.remoteTarget ∧
    d'.state = d.state ∧ d'.routeSet = d.routeSet ∧ d'.sessionExpires = d.sessionExpires ∧ d'.refresher = d.refresher ∧
    ∃ n, CSeqOf r.headers n ∧
      (r.method.asStr = "ACK".toList → d'.lastAck = some n ∧ d'.remoteCSeq = d.remoteCSeq) ∧
      (r.method.asStr ≠ "ACK".toList → d'.lastAck = d.lastAck ∧ d'.remoteCSeq = n) := by
  unfold Dialog.updateFromRequest at h
  cases hc : cseqNumber r.headers with
  | none => rw [hc] at h; simp at h
  | some n =>
    have hn := (cseqNumber_iff _ _).1 hc
    rw [hc] at h
    simp only [updTarget_eq] at h
    have tgt : TargetOf r.headers d.remoteTarget (targetOr (contactUri r.headers) d.remoteTarget) :=
      (targetOf_iff _ _ _).2 rfl
    split at h
    · simp at h
    · by_cases hm : r.method.asStr = "ACK".toList
      · rw [if_pos hm] at h
        split at h
        · simp at h
        · simp only [Prod.mk.injEq, true_and] at h
          subst h
          exact ⟨⟨rfl, rfl, rfl, rfl, rfl, rfl⟩, tgt, rfl, rfl, rfl, rfl, n, hn, fun _ => ⟨rfl, rfl⟩, fun hh => absurd hm hh⟩
      · rw [if_neg hm] at h
        have fin : ∀ {x : Dialog}, { d with remoteCSeq := n, remoteTarget := targetOr (contactUri r.headers) d.remoteTarget } = x →
            SameCall d x ∧ TargetOf r.headers d.remoteTarget x.remoteTarget ∧
            x.state = d.state ∧ x.routeSet = d.routeSet ∧ x.sessionExpires = d.sessionExpires ∧ x.refresher = d.refresher ∧
            ∃ n, CSeqOf r.headers n ∧
              (r.method.asStr = "ACK".toList → x.lastAck = some n ∧ x.remoteCSeq = d.remoteCSeq) ∧
              (r.method.asStr ≠ "ACK".toList → x.lastAck = d.lastAck ∧ x.remoteCSeq = n) := by
          rintro x rfl
          exact ⟨⟨rfl, rfl, rfl, rfl, rfl, rfl⟩, tgt, rfl, rfl, rfl, rfl, n, hn, fun hh => absurd hh hm, fun _ => ⟨rfl, rfl⟩⟩
        split at h
        · simp at h
        · split at h
          · split at h
            · simp at h
            · simp only [Prod.mk.injEq, true_and] at h
              exact fin h
          · simp only [Prod.mk.injEq, true_and] at h
            exact fin h

/-- **C91.** A response moves the remote target to its Contact, if it has one, and takes over its session timer, if it
has one, with interval and refresher; an early dialog becomes confirmed with a 2xx, and then takes over the
Record-Route of the response, from bottom to top, unless that is empty or not acceptable. -/
theorem C91_response (d : Dialog) (r : Response) :
    SameCall d (d.updateFromResponse r) ∧
    TargetOf r.headers d.remoteTarget (d.updateFromResponse r).remoteTarget ∧
    (d.updateFromResponse r).remoteCSeq = d.remoteCSeq ∧ (d.updateFromResponse r).lastAck = d.lastAck ∧
    (∀ n role, Asks r.headers n role →
      (d.updateFromResponse r).sessionExpires = some n ∧ (d.updateFromResponse r).refresher = role) ∧
    ((∀ n role, ¬ Asks r.headers n role) →
      (d.updateFromResponse r).sessionExpires = d.sessionExpires ∧ (d.updateFromResponse r).refresher = d.refresher) ∧
    (d.state = .early → 200 ≤ r.code → r.code ≤ 299 → ∀ us, Routes r.headers us → us ≠ [] →
      (d.updateFromResponse r).routeSet = us.reverse) ∧
    ((d.state ≠ .early ∨ r.code < 200 ∨ 299 < r.code ∨ ∀ us, Routes r.headers us → us = []) →
      (d.updateFromResponse r).routeSet = d.routeSet) := by
  have e1 : ∀ x : Dialog, x.updTimer r.headers =
      { x with sessionExpires := ((sessionTimer r.headers).map (·.delta)).or x.sessionExpires,
               refresher := newRole (sessionTimer r.headers) x.refresher } := by
    intro x
    unfold Dialog.updTimer
    cases sessionTimer r.headers <;> rfl
  have e2 : ∀ x : Dialog, ∃ rs, x.updRoutes r = { x with routeSet := rs } ∧
      (x.state = .early → 200 ≤ r.code → r.code ≤ 299 → ∀ us, Routes r.headers us → us ≠ [] → rs = us.reverse) ∧
      ((x.state ≠ .early ∨ r.code < 200 ∨ 299 < r.code ∨ ∀ us, Routes r.headers us → us = []) → rs = x.routeSet) := by
    intro x
    unfold Dialog.updRoutes
    have h2 : Dialog.is2xx r.code = true ↔ 200 ≤ r.code ∧ r.code ≤ 299 := by
      unfold Dialog.is2xx
      rw [Bool.and_eq_true, decide_eq_true_eq, decide_eq_true_eq]
      omega
    simp only [h2]
    split
    · rename_i hc
      cases hb : buildRouteSet r.headers true with
      | error e =>
        refine ⟨x.routeSet, rfl, ?_, fun _ => rfl⟩
        intro _ _ _ us hu _
        have := (buildRouteSet_iff r.headers true _).2 ⟨us, hu, rfl⟩
        rw [hb] at this; cases this
      | ok l =>
        obtain ⟨us, hu, hl⟩ := (buildRouteSet_iff r.headers true l).1 hb
        have huniq : ∀ vs, Routes r.headers vs → vs = us := by
          intro vs hv
          rw [routes_iff] at hv hu
          rw [hv] at hu
          cases hu; rfl
        simp only [if_true] at hl
        simp only
        split
        · rename_i hem
          refine ⟨x.routeSet, rfl, ?_, fun _ => rfl⟩
          intro _ _ _ vs hv hne
          rw [hl] at hem
          simp at hem
          rw [huniq vs hv] at hne
          exact absurd hem hne
        · rename_i hem
          refine ⟨l, rfl, ?_, ?_⟩
          · intro _ _ _ vs hv _
            rw [huniq vs hv, hl]
          · rintro (h | h | h | h)
            · exact absurd hc.1 h
            · omega
            · omega
            · rw [hl, h us hu] at hem; simp at hem
    · rename_i hc
      refine ⟨x.routeSet, rfl, ?_, fun _ => rfl⟩
      intro h1 h2 h3
      exact absurd ⟨h1, h2, h3⟩ hc
  obtain ⟨rs, hrs, p1, p2⟩ := e2 { d with remoteTarget := targetOr (contactUri r.headers) d.remoteTarget }
  have hshape : ∃ st, d.updateFromResponse r =
      { d with remoteTarget := targetOr (contactUri r.headers) d.remoteTarget, routeSet := rs, state := st,
               sessionExpires := ((sessionTimer r.headers).map (·.delta)).or d.sessionExpires,
               refresher := newRole (sessionTimer r.headers) d.refresher } := by
    unfold Dialog.updateFromResponse
    simp only [updTarget_eq, hrs, e1]
    split
    · unfold Dialog.confirm
      split
      · exact ⟨.confirmed, rfl⟩
      · exact ⟨d.state, rfl⟩
    · exact ⟨d.state, rfl⟩
  obtain ⟨st, hst⟩ := hshape
  rw [hst]
  refine ⟨⟨rfl, rfl, rfl, rfl, rfl, rfl⟩, (targetOf_iff _ _ _).2 rfl, rfl, rfl, ?_, ?_, p1, p2⟩
  · intro n role h
    rw [← sessionTimer_iff] at h
    simp [h, newRole]
  · intro h
    have : sessionTimer r.headers = none := by
      cases hs : sessionTimer r.headers with
      | none => rfl
      | some se => exact absurd ((sessionTimer_iff _ _ _).1 hs) (h se.delta se.refresher)
    simp [this, newRole]

/-- **C91.** Setting the interval by hand succeeds exactly for 90 to 86400 seconds, of the last 32 bits of the
number. -/
theorem C91_set_interval (d : Dialog) (n : Nat) : (∃ d', d.setSessionExpires n = .ok d') ↔
    90 ≤ n % 2 ^ 32 ∧ n % 2 ^ 32 ≤ 86400 := by
  unfold Dialog.setSessionExpires validateSE MIN_SESSION_EXPIRES MAX_SESSION_EXPIRES
  rw [show (4294967296 : Nat) = 2 ^ 32 from rfl]
  generalize n % 2 ^ 32 = m
  simp only
  by_cases h1 : m < 90
  · rw [if_pos h1]; simp; omega
  · rw [if_neg h1]
    by_cases h2 : m > 86400
    · rw [if_pos h2]; simp; omega
    · rw [if_neg h2]; simp; omega

/-- **C91, finding.** So an interval of 136 years and 90 seconds is accepted. -/
theorem C91_set_too_long (d : Dialog) :
    ∃ d', d.setSessionExpires (2 ^ 32 + 90) = .ok d' ∧ d'.sessionExpires = some (2 ^ 32 + 90) := by
  generalize hn : 2 ^ 32 + 90 = n
  obtain ⟨d', h⟩ := (C91_set_interval d n).2 (by omega)
  refine ⟨d', h, ?_⟩
  unfold Dialog.setSessionExpires at h
  split at h
  · cases h
  · cases h; rfl

/-- **C91.** A refresh is due exactly when two thirds of the interval have passed (to the nanosecond below). -/
theorem C91_refresh_due (d : Dialog) (nanos : Nat) : d.needsRefresh nanos = true ↔
    ∃ e, d.sessionExpires = some e ∧ 2 * (e * 10 ^ 9) < 3 * (nanos + 1) := by
  unfold Dialog.needsRefresh
  cases d.sessionExpires with
  | none => simp
  | some e =>
    simp only [decide_eq_true_eq, Option.some.injEq, exists_eq_left']
    omega

/-- **C80.** The method of a request built for a dialog is the one its builder is named after. -/
theorem C80_method (ua : Ua) (branch : Str) (d : Dialog) (k : Kind) (r : Request) (h : create ua branch d k = .done r) :
    (k = .bye → r.method.asStr = "BYE".toList) ∧ (∀ b, k = .reinvite b → r.method.asStr = "INVITE".toList) ∧
    (∀ b, k = .update b → r.method.asStr = "UPDATE".toList) ∧ (∀ a b, k = .info a b → r.method.asStr = "INFO".toList) ∧
    (∀ a, k = .prack a → r.method.asStr = "PRACK".toList) ∧ (∀ a b, k = .refer a b → r.method.asStr = "REFER".toList) := by
  obtain ⟨hm, _⟩ := create_inner h
  rw [hm]
  clear h hm
  refine ⟨?_, ?_, ?_, ?_, ?_, ?_⟩
  · rintro rfl; rfl
  · rintro b rfl; rfl
  · rintro b rfl; rfl
  · rintro a b rfl; rfl
  · rintro a rfl; rfl
  · rintro a b rfl; rfl

/-- **C82.** What the answer to a refresh does to the dialog: a 2xx updates it, 408 and 481 end it (RFC 3261, 12.2.1.2),
any other leaves it alone; and only after 408 and 481 the refreshing must not go on. -/
theorem C82_answer (d : Dialog) (r : Response) :
    ((applyResponse d r).2 = false ↔ r.code = 408 ∨ r.code = 481) ∧
    (r.code = 408 ∨ r.code = 481 → (applyResponse d r).1 = { d with state := .terminated }) ∧
    (200 ≤ r.code → r.code ≤ 299 → (applyResponse d r).1 = d.updateFromResponse r) ∧
    ((r.code < 200 ∨ 299 < r.code) → r.code ≠ 408 → r.code ≠ 481 → (applyResponse d r).1 = d) := by
  have h2 : Dialog.is2xx r.code = true ↔ 200 ≤ r.code ∧ r.code ≤ 299 := by
    unfold Dialog.is2xx
    rw [Bool.and_eq_true, decide_eq_true_eq, decide_eq_true_eq]
    omega
  unfold applyResponse
  simp only [h2]
  by_cases a : 200 ≤ r.code ∧ r.code ≤ 299
  · rw [if_pos a]; simp; omega
  · rw [if_neg a]
    by_cases b : r.code = 408 ∨ r.code = 481
    · rw [if_pos b]
      refine ⟨by simp [b], fun _ => rfl, fun x y => absurd ⟨x, y⟩ a, ?_⟩
      rintro _ x y; rcases b with b | b <;> contradiction
    · rw [if_neg b]
      refine ⟨by simp [b], fun x => absurd x b, fun x y => absurd ⟨x, y⟩ a, fun _ _ _ => rfl⟩

/-! ## The hypotheses are met -/

section Examples

private def hd (l : List (String × String)) : Headers := ⟨l.map (fun p => { name := p.1.toList, value := p.2.toList })⟩
private def u (s : String) : SipUri := { raw := ("sip:" ++ s).toList, sips := false, user := none, host := s.toList, port := none, params := [], headers := [] }
private def inv : Request :=
  { method := .invite, uri := "sip:b".toList, body := [],
    headers := hd [("Call-ID", "c1"), ("From", "\"A, B\" <sip:a>;tag=x"), ("To", "<sip:b>"), ("CSeq", "7 INVITE"),
      ("Contact", "<sip:a@host>;expires=5"), ("Record-Route", "<sip:p1;lr>, nonsense, <sip:p2;lr>"), ("Record-Route", "<sip:p3;lr>")] }
private def ok (c : Nat) : Response :=
  { code := c, reason := [], body := [],
    headers := hd [("Call-ID", "c1"), ("From", "\"A, B\" <sip:a>;tag=x"), ("To", "<sip:b>;tag=y"), ("CSeq", "7 INVITE"),
      ("Contact", "sip:b@host;x=y"), ("Session-Expires", "1800;refresher=uas"),
      ("Record-Route", "<sip:p1;lr>, nonsense, <sip:p2;lr>"), ("Record-Route", "<sip:p3;lr>")] }

private def seen : Run (Option Dialog) → Option (List Str × DState × List Nat)
  | .done (some d) => some ([d.id.callId, d.id.localTag, d.id.remoteTag, d.remoteTarget.raw] ++ d.routeSet.map (·.host), d.state,
      [d.localCSeq, d.remoteCSeq] ++ d.sessionExpires.toList)
  | _ => none

-- C90_uac, C90_uas: two dialogs for one call
example : seen (Dialog.newUac inv (ok 200) (u "a") (u "b")) = some (["c1".toList, "x".toList, "y".toList,
    "sip:b@host".toList, "p3".toList, "p2".toList, "p1".toList], .confirmed, [7, 0, 1800]) := by decide +kernel
example : seen (Dialog.newUas inv (ok 180) (u "b") (u "a")) = some (["c1".toList, "y".toList, "x".toList,
    "sip:a@host".toList, "p1".toList, "p2".toList, "p3".toList], .early, [0, 7, 1800]) := by decide +kernel
example : seen (Dialog.newUac inv (ok 302) (u "a") (u "b")) = none := by decide +kernel
-- C90_id
example : DialogId.new "c".toList "a".toList "b".toList = .ok ⟨"c".toList, "a".toList, "b".toList⟩ := by decide +kernel
example : DialogId.new [] "a".toList "b".toList = .error .badCallId := by decide +kernel
-- C91: an INFO with another Contact
private def d0 : Dialog :=
  Dialog.mk { callId := "c1".toList, localTag := "a".toList, remoteTag := "b".toList } .early (u "x") [] 7 0 none (u "l") (u "r") false none none true
example : ((d0.run [.request { inv with method := .info }]).remoteTarget.raw, (d0.run [.request { inv with method := .info }]).remoteCSeq,
    (d0.run [.request { inv with method := .info }, .request { inv with method := .ack }]).lastAck) =
    ("sip:a@host".toList, 7, some 7) := by decide +kernel
example : ((d0.run [.response (ok 200)]).refresher, (d0.run [.response (ok 200)]).sessionExpires) = (some .uas, some 1800) := by
  decide +kernel
-- C91_refresh_due: half an hour, after twenty minutes
example : ((d0.run [.response (ok 200)]).needsRefresh (1200 * 10 ^ 9 - 1), (d0.run [.response (ok 200)]).needsRefresh (1200 * 10 ^ 9)) =
    (false, true) := by decide +kernel

end Examples

end Siphon.Dlg
