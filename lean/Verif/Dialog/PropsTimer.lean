import Verif.Dialog.TimerSpec
import Verif.Dialog.UacProps
import Verif.Dialog.PropsAck
/-!
# C22: session-timer negotiation
-/
set_option linter.unusedSimpArgs false
namespace Siphon.Dlg
open TextSpec HdrSpec Spec

/-! ## Reading the headers -/

theorem refresherParam_iff (p : Str) :
    "refresher=".toList.isPrefixOf (trim p) = true ↔ ∃ r, RefresherParam p r := by
  unfold RefresherParam
  rw [List.isPrefixOf_iff_prefix]
  constructor
  · rintro ⟨r, h⟩; exact ⟨r, (strips_trim _ _).2 h⟩
  · rintro ⟨r, h⟩; exact ⟨r, (strips_trim _ _).1 h⟩

theorem refresherParam_drop {p r : Str} (h : RefresherParam p r) : (trim p).drop 10 = r := by
  have := (strips_trim _ _).1 h
  rw [← this]
  rfl

theorem trim_trim (s : Str) : trim (trim s) = trim s := by
  obtain ⟨a, b, _, _, _, h1, h2⟩ := (strips_trim s _).2 rfl
  exact trim_of_trimmed _ ⟨h1, h2⟩

theorem roleText_any (r : Str) : RoleText r (Role.parse r) := by
  unfold Role.parse
  have key : ∀ w : Str, lower w = w → (lower (trim r) = w ↔ SameName (trim r) w) := by
    intro w hw
    rw [sameName_iff]; unfold eqIgnoreCase; rw [beq_iff_eq, hw]
  have hs := (strips_trim r _).2 rfl
  split
  · rename_i h; exact .uac hs ((key _ (by decide)).1 h)
  · rename_i h
    split
    · rename_i h'; exact .uas hs ((key _ (by decide)).1 h')
    · rename_i h'
      exact .neither hs (fun x => h ((key _ (by decide)).2 x)) (fun x => h' ((key _ (by decide)).2 x))

theorem roleText_parse (r : Str) : RoleText r (Role.parse (trim r)) := by
  have := roleText_any r
  unfold Role.parse at this ⊢
  rw [trim_trim]
  exact this

theorem roleText_unique {r : Str} {a b : Option Role} (ha : RoleText r a) (hb : RoleText r b) : a = b := by
  have hn : ∀ w : Str, SameName w "uac".toList → ¬ SameName w "uas".toList := by
    intro w h1 h2
    have h := sameName_trans (sameName_symm h1) h2
    rw [sameName_iff] at h
    exact absurd h (by decide)
  cases ha with
  | uac h1 h2 => cases hb with
    | uac => rfl
    | uas h3 h4 => rw [strips_trim] at h1 h3; subst h1; subst h3; exact absurd h4 (hn _ h2)
    | neither h3 h4 => rw [strips_trim] at h1 h3; subst h1; subst h3; exact absurd h2 h4
  | uas h1 h2 => cases hb with
    | uac h3 h4 => rw [strips_trim] at h1 h3; subst h1; subst h3; exact absurd h2 (hn _ h4)
    | uas => rfl
    | neither h3 _ h4 => rw [strips_trim] at h1 h3; subst h1; subst h3; exact absurd h2 h4
  | neither h1 h2 h2' => cases hb with
    | uac h3 h4 => rw [strips_trim] at h1 h3; subst h1; subst h3; exact absurd h4 h2
    | uas h3 h4 => rw [strips_trim] at h1 h3; subst h1; subst h3; exact absurd h4 h2'
    | neither => rfl

theorem refresherOf_append (p : Str) : ∀ (ps qs : List Str) (acc : Option Role),
    refresherOf (ps ++ qs) acc = refresherOf qs (refresherOf ps acc)
  | [], _, _ => rfl
  | x :: ps, qs, acc => by
    simp only [List.cons_append, refresherOf]
    split <;> exact refresherOf_append p ps qs _

theorem refresherOf_none : ∀ (ps : List Str) (acc : Option Role), (∀ p ∈ ps, ∀ r, ¬ RefresherParam p r) →
    refresherOf ps acc = acc
  | [], _, _ => rfl
  | p :: ps, acc, h => by
    have hp : ¬ "refresher=".toList.isPrefixOf (trim p) = true := by
      rw [refresherParam_iff]; rintro ⟨r, hr⟩; exact h p List.mem_cons_self r hr
    simp only [refresherOf, if_neg hp]
    exact refresherOf_none ps acc (fun q hq => h q (List.mem_cons_of_mem _ hq))

theorem refresherOf_some {p r : Str} (h : RefresherParam p r) (ps : List Str) (acc : Option Role) :
    refresherOf (p :: ps) acc = refresherOf ps (Role.parse (trim r)) := by
  simp only [refresherOf, if_pos ((refresherParam_iff p).2 ⟨r, h⟩), refresherParam_drop h]

theorem refresherIn_iff (ps : List Str) (role : Option Role) : RefresherIn ps role ↔ refresherOf ps none = role := by
  constructor
  · intro h
    cases h with
    | absent h => exact refresherOf_none _ _ h
    | last h1 h2 h3 =>
      rw [refresherOf_append [], refresherOf_some h1, refresherOf_none _ _ h2]
      exact roleText_unique (roleText_parse _) h3
  · rintro rfl
    by_cases hex : ∃ p ∈ ps, ∃ r, RefresherParam p r
    · have : ∃ pre p post r, ps = pre ++ p :: post ∧ RefresherParam p r ∧ ∀ q ∈ post, ∀ r, ¬ RefresherParam q r := by
        induction ps with
        | nil => obtain ⟨p, hp, _⟩ := hex; cases hp
        | cons x ps ih =>
          by_cases hx : ∃ p ∈ ps, ∃ r, RefresherParam p r
          · obtain ⟨pre, p, post, r, e, h1, h2⟩ := ih hx
            exact ⟨x :: pre, p, post, r, by rw [e]; rfl, h1, h2⟩
          · obtain ⟨p, hp, r, hr⟩ := hex
            rcases List.mem_cons.1 hp with rfl | hp
            · exact ⟨[], p, ps, r, rfl, hr, fun q hq r hr => hx ⟨q, hq, r, hr⟩⟩
            · exact absurd ⟨p, hp, r, hr⟩ hx
      obtain ⟨pre, p, post, r, e, h1, h2⟩ := this
      subst e
      rw [refresherOf_append [], refresherOf_some h1, refresherOf_none _ _ h2]
      exact .last h1 h2 (roleText_parse _)
    · rw [refresherOf_none _ _ (fun p hp r hr => hex ⟨p, hp, r, hr⟩)]
      exact .absent (fun p hp r hr => hex ⟨p, hp, r, hr⟩)

theorem any_control (v : Str) : v.any isControl = false ↔ ∀ c ∈ v, isControl c = false := by
  simp [List.any_eq_false]

/-- **C22.** A Session-Expires value can be made exactly for intervals from 90 seconds to a day. -/
theorem C22_new (d : Nat) (s : SessionExpires) :
    SessionExpires.new d = some s ↔ 90 ≤ d ∧ d ≤ 86400 ∧ s = { delta := d, refresher := none } := by
  unfold SessionExpires.new SE_MIN SE_MAX
  split
  · exact ⟨fun h => (by cases h), fun h => absurd h.1 (by omega)⟩
  · split
    · exact ⟨fun h => (by cases h), fun h => absurd h.2.1 (by omega)⟩
    · simp only [Option.some.injEq]
      exact ⟨fun h => ⟨by omega, by omega, h.symm⟩, fun h => h.2.2.symm⟩

/-- **C22.** A refresher role is read exactly as described, blanks and case aside. -/
theorem C22_role_text (r : Str) (o : Option Role) : Role.parse r = o ↔ RoleText r o :=
  ⟨fun h => h ▸ roleText_any r, fun h => roleText_unique (roleText_any r) h⟩

/-- **C22.** A Session-Expires value is read as it is written. -/
theorem C22_read (v : Str) (n : Nat) (role : Option Role) :
    SessionExpires.parse v = some { delta := n, refresher := role } ↔ SEText v n role := by
  unfold SessionExpires.parse SEText
  rw [← any_control]
  cases hc : v.any isControl with
  | true => simp
  | false =>
    simp only [Bool.false_eq_true, if_false, true_and]
    cases he : (trim v).isEmpty with
    | true =>
      simp only [if_true]
      constructor
      · intro h; cases h
      · rintro ⟨t, p, ps, q, h1, h2, h3, h4, _⟩
        rw [strips_trim] at h1 h3
        have : trim v = [] := by simpa using he
        rw [this] at h1
        subst h1
        have h2 := (pieces_iff _ _ _).1 h2
        simp only [splitChar, List.cons.injEq] at h2
        obtain ⟨rfl, _⟩ := h2
        rw [h3] at h4
        rcases h4 with h4 | ⟨r, h4, _⟩
        · exact absurd rfl (decDigits_ne h4)
        · cases h4
    | false =>
      simp only [Bool.false_eq_true, if_false]
      cases hsp : splitChar ';' (trim v) with
      | nil => exact absurd hsp (splitChar_ne_nil _ _)
      | cons p ps =>
        simp only
        have hP : Pieces ';' (trim v) (p :: ps) := (pieces_iff _ _ _).2 hsp.symm
        constructor
        · intro h
          split at h
          · cases h
          · rename_i d hd
            split at h
            · cases h
            · rename_i hr
              simp only [Option.some.injEq, SessionExpires.mk.injEq] at h
              obtain ⟨rfl, h2⟩ := h
              simp only [Bool.or_eq_true, not_or, SE_MIN, SE_MAX] at hr
              have hr1 := of_decide_eq_false (Bool.not_eq_true _ ▸ hr.1)
              have hr2 := of_decide_eq_false (Bool.not_eq_true _ ▸ hr.2)
              exact ⟨trim v, p, ps, trim p, (strips_trim _ _).2 rfl, hP, (strips_trim _ _).2 rfl, parseDec_some hd, by omega,
                by omega, (refresherIn_iff _ _).2 h2⟩
        · rintro ⟨t, p', ps', q, h1, h2, h3, h4, h5, h6, h7⟩
          rw [strips_trim] at h1 h3
          subst h1; subst h3
          have h2 := (pieces_iff _ _ _).1 h2
          rw [hsp] at h2
          simp only [List.cons.injEq] at h2
          obtain ⟨rfl, rfl⟩ := h2
          rw [parseDec_complete h4 (show n ≤ MAX_U32 by unfold MAX_U32; omega)]
          simp only
          rw [if_neg (by
            simp only [SE_MIN, SE_MAX, Bool.or_eq_true]
            rintro (h | h) <;> have := of_decide_eq_true h <;> omega), (refresherIn_iff _ _).1 h7]

theorem minSeText_iff (v : Str) (n : Nat) : minSeParse v = some n ↔ MinSEText v n := by
  unfold minSeParse MinSEText
  rw [← any_control]
  cases hc : v.any isControl with
  | true => simp
  | false =>
    simp only [Bool.false_eq_true, if_false, true_and]
    constructor
    · intro h
      split at h
      · cases h
      · split at h
        · cases h
        · rename_i d hd
          split at h
          · cases h
          · rename_i hr
            simp only [Option.some.injEq] at h
            subst h
            simp only [Bool.or_eq_true, not_or, SE_MIN, MIN_SE_MAX] at hr
            have hr1 := of_decide_eq_false (Bool.not_eq_true _ ▸ hr.1)
            have hr2 := of_decide_eq_false (Bool.not_eq_true _ ▸ hr.2)
            exact ⟨trim v, (strips_trim _ _).2 rfl, parseDec_some hd, by omega, by omega⟩
    · rintro ⟨q, h1, h2, h3, h4⟩
      rw [strips_trim] at h1
      subst h1
      have hne : (trim v).isEmpty = false := by
        rcases h2 with h2 | ⟨r, h2, _⟩
        · have := decDigits_ne h2
          cases htr : trim v with
          | nil => exact absurd htr this
          | cons => rfl
        · rw [h2]; rfl
      rw [hne, parseDec_complete h2 (show n ≤ MAX_U32 by unfold MAX_U32; omega)]
      simp only [Bool.false_eq_true, if_false]
      rw [if_neg (by
            simp only [SE_MIN, MIN_SE_MAX, Bool.or_eq_true]
            rintro (h | h) <;> have := of_decide_eq_true h <;> omega)]

theorem asks_iff (hs : Headers) (n : Nat) (role : Option Role) :
    Asks hs n role ↔ (hs.get "Session-Expires".toList).bind SessionExpires.parse = some { delta := n, refresher := role } := by
  unfold Asks
  constructor
  · rintro ⟨v, h1, h2⟩
    rw [(first_iff _ _ _).1 h1]
    exact (C22_read _ _ _).2 h2
  · intro h
    cases hv : hs.get "Session-Expires".toList with
    | none => rw [hv] at h; cases h
    | some v =>
      rw [hv] at h
      exact ⟨v, (first_iff _ _ _).2 hv, (C22_read _ _ _).1 h⟩

theorem asks_unique {hs : Headers} {n n' : Nat} {r r' : Option Role} (h : Asks hs n r) (h' : Asks hs n' r') :
    n = n' ∧ r = r' := by
  rw [asks_iff] at h h'
  rw [h] at h'
  simpa using h'

theorem meetsMin_iff (hs : Headers) (m : Nat) :
    MeetsMin hs m ↔ ∀ n, (hs.get "Min-SE".toList).bind minSeParse = some n → n ≤ m := by
  unfold MeetsMin
  constructor
  · intro h n hn
    cases hv : hs.get "Min-SE".toList with
    | none => rw [hv] at hn; cases hn
    | some v =>
      rw [hv] at hn
      exact h v n ((first_iff _ _ _).2 hv) ((minSeText_iff _ _).1 hn)
  · intro h v n hv hn
    exact h n (by rw [(first_iff _ _ _).1 hv]; exact (minSeText_iff _ _).2 hn)

/-! ## The negotiated interval -/

theorem negotiate_cases (req lm : Nat) (rm pref : Option Nat) :
    ∃ m, lm ≤ m ∧ (∀ n, rm = some n → n ≤ m) ∧ (m = lm ∨ rm = some m) ∧
      (req < m → negotiate req lm rm pref = .error m) ∧
      (m ≤ req → ∃ n, negotiate req lm rm pref = .ok n ∧ m ≤ n ∧ n ≤ req ∧ (∀ p, pref = some p → n ≤ Nat.max p m) ∧
        (n = req ∨ ∃ p, pref = some p ∧ n = Nat.max p m)) := by
  have hmax : ∀ a b : Nat, (a ≤ b ∧ Nat.max a b = b) ∨ (b ≤ a ∧ Nat.max a b = a) := by
    intro a b
    rcases Nat.le_total a b with h | h
    · exact Or.inl ⟨h, Nat.max_eq_right h⟩
    · exact Or.inr ⟨h, Nat.max_eq_left h⟩
  have main : ∀ m, (req < m → (if req < m then (.error m : Except Nat Nat) else match pref with
      | none => .ok req
      | some p => if Nat.max p m < req then .ok (Nat.max p m) else .ok req) = .error m) ∧
      (m ≤ req → ∃ n, (if req < m then (.error m : Except Nat Nat) else match pref with
      | none => .ok req
      | some p => if Nat.max p m < req then .ok (Nat.max p m) else .ok req) = .ok n ∧ m ≤ n ∧ n ≤ req ∧ (∀ p, pref = some p → n ≤ Nat.max p m) ∧
        (n = req ∨ ∃ p, pref = some p ∧ n = Nat.max p m)) := by
    intro m
    constructor
    · intro h; rw [if_pos h]
    · intro h
      rw [if_neg (by omega)]
      cases pref with
      | none => exact ⟨req, rfl, h, Nat.le_refl _, by simp, Or.inl rfl⟩
      | some p =>
        simp only
        have hm := hmax p m
        split
        · exact ⟨_, rfl, by omega, by omega, by simp, Or.inr ⟨p, rfl, rfl⟩⟩
        · exact ⟨req, rfl, h, Nat.le_refl _, by intro q hq; injection hq with hq; subst hq; omega, Or.inl rfl⟩
  unfold negotiate
  cases rm with
  | none => exact ⟨lm, Nat.le_refl _, by simp, Or.inl rfl, main lm⟩
  | some r =>
    have := hmax lm r
    refine ⟨Nat.max lm r, by omega, by intro n hn; injection hn with hn; omega, ?_, main _⟩
    rcases this with ⟨_, e⟩ | ⟨_, e⟩
    · right; rw [e]
    · left; exact e

/-- **C22.** The negotiated interval is at least the minimum of either side, at most what the caller asked for, and at
most what the callee prefers unless a minimum forces more; it is one of these three. -/
theorem C22_interval (pol : TimerPolicy) (hs : Headers) (v : Str) (n : Nat) (r : Role) (h : acceptTimer pol hs = .timer v n r) :
    ∃ d role, Asks hs d role ∧ pol.minSe ≤ n ∧ MeetsMin hs n ∧ n ≤ d ∧
      (∀ p, pol.preferred = some p → p < n →
        n = pol.minSe ∨ ∃ m, First hs "Min-SE" m ∧ MinSEText m n) ∧
      (n = d ∨ pol.preferred = some n ∨ n = pol.minSe ∨ ∃ m, First hs "Min-SE" m ∧ MinSEText m n) := by
  unfold acceptTimer at h
  split at h
  · cases h
  · rename_i req hreq
    have hask : Asks hs req.delta req.refresher := (asks_iff _ _ _).2 (by rw [hreq])
    obtain ⟨m, h1, h2, h3, h4, h5⟩ := negotiate_cases req.delta pol.minSe ((hs.get "Min-SE".toList).bind minSeParse) pol.preferred
    rcases Nat.lt_or_ge req.delta m with hlt | hge
    · rw [h4 hlt] at h; cases h
    · obtain ⟨n', e, g1, g2, g3, g4⟩ := h5 hge
      rw [e] at h
      simp only [TimerOutcome.timer.injEq] at h
      obtain ⟨_, rfl, _⟩ := h
      have hm : n' = m → n' = pol.minSe ∨ ∃ x, First hs "Min-SE" x ∧ MinSEText x n' := by
        intro hnm
        rcases h3 with h3 | h3
        · left; omega
        · right
          cases hv : hs.get "Min-SE".toList with
          | none => rw [hv] at h3; cases h3
          | some x =>
            rw [hv] at h3
            exact ⟨x, (first_iff _ _ _).2 hv, (minSeText_iff _ _).1 (by rw [hnm]; exact h3)⟩
      refine ⟨req.delta, req.refresher, hask, by omega, (meetsMin_iff _ _).2 (fun k hk => Nat.le_trans (h2 k hk) g1), g2, ?_, ?_⟩
      · intro p hp hpn
        have hb := g3 p hp
        have : n' ≤ m := by
          rcases Nat.le_total p m with hh | hh
          · rw [show Nat.max p m = m from Nat.max_eq_right hh] at hb; exact hb
          · rw [show Nat.max p m = p from Nat.max_eq_left hh] at hb; omega
        exact hm (by omega)
      · rcases g4 with g4 | ⟨p, hp, g4⟩
        · exact Or.inl g4
        · rcases Nat.le_total p m with hh | hh
          · rw [show Nat.max p m = m from Nat.max_eq_right hh] at g4
            exact Or.inr (Or.inr (hm g4))
          · rw [show Nat.max p m = p from Nat.max_eq_left hh] at g4
            exact Or.inr (Or.inl (by rw [hp, g4]))

/-- **C22.** A request is refused with 422 exactly if it asks for less than one of the two minima; the 422 names the larger
one. -/
theorem C22_refused_iff (pol : TimerPolicy) (hs : Headers) (d : Nat) (role : Option Role) (h : Asks hs d role) :
    ((∃ m, acceptTimer pol hs = .tooSmall m) ↔ (d < pol.minSe ∨ ¬ MeetsMin hs d)) ∧
    ∀ m, acceptTimer pol hs = .tooSmall m → d < m ∧ pol.minSe ≤ m ∧ MeetsMin hs m ∧
      (m = pol.minSe ∨ ∃ x, First hs "Min-SE" x ∧ MinSEText x m) := by
  have hreq := (asks_iff _ _ _).1 h
  obtain ⟨m, h1, h2, h3, h4, h5⟩ := negotiate_cases d pol.minSe ((hs.get "Min-SE".toList).bind minSeParse) pol.preferred
  have key : (∃ k, acceptTimer pol hs = .tooSmall k) → acceptTimer pol hs = .tooSmall m ∧ d < m := by
    rintro ⟨k, hk⟩
    rcases Nat.lt_or_ge d m with hlt | hge
    · refine ⟨?_, hlt⟩
      unfold acceptTimer
      rw [hreq]
      simp only [h4 hlt]
    · obtain ⟨n, e, _⟩ := h5 hge
      unfold acceptTimer at hk
      rw [hreq] at hk
      simp only [e] at hk
      cases hk
  constructor
  · constructor
    · intro hk
      obtain ⟨_, hlt⟩ := key hk
      rcases h3 with h3 | h3
      · left; omega
      · right
        rw [meetsMin_iff]
        intro hh
        have := hh m h3
        omega
    · intro hh
      have hlt : d < m := by
        rcases hh with hh | hh
        · omega
        · rw [meetsMin_iff] at hh
          exact Classical.byContradiction (fun hc => hh (fun n hn => by have := h2 n hn; omega))
      refine ⟨m, ?_⟩
      unfold acceptTimer
      rw [hreq]
      simp only [h4 hlt]
  · intro k hk
    obtain ⟨e, hlt⟩ := key ⟨k, hk⟩
    rw [e] at hk
    injection hk with hk
    subst hk
    refine ⟨hlt, h1, (meetsMin_iff _ _).2 h2, ?_⟩
    rcases h3 with h3 | h3
    · exact Or.inl h3
    · right
      cases hv : hs.get "Min-SE".toList with
      | none => rw [hv] at h3; cases h3
      | some x =>
        rw [hv] at h3
        exact ⟨x, (first_iff _ _ _).2 hv, (minSeText_iff _ _).1 h3⟩

/-- **C22.** A caller that follows the 422 gets through: a request that asks for at least the minimum named there, and
repeats it as its own Min-SE or keeps the old one, is not refused. -/
theorem C22_retry (pol : TimerPolicy) (hs hs' : Headers) (m d d' : Nat) (role role' : Option Role) (h : Asks hs d role)
    (hr : acceptTimer pol hs = .tooSmall m) (h' : Asks hs' d' role') (hd : m ≤ d') (hmin : MeetsMin hs' m) :
    ∃ v n r, acceptTimer pol hs' = .timer v n r := by
  obtain ⟨_, h2, _, _⟩ := (C22_refused_iff pol hs d role h).2 m hr
  have hnot : ¬ ∃ k, acceptTimer pol hs' = .tooSmall k := by
    rw [(C22_refused_iff pol hs' d' role' h').1]
    rintro (hh | hh)
    · omega
    · exact hh (fun v n hv hn => Nat.le_trans (hmin v n hv hn) hd)
  cases e : acceptTimer pol hs' with
  | tooSmall k => exact absurd ⟨k, e⟩ hnot
  | noTimer =>
    unfold acceptTimer at e
    rw [(asks_iff _ _ _).1 h'] at e
    simp only at e
    split at e <;> cases e
  | timer v n r => exact ⟨v, n, r, rfl⟩

/-- **C22.** There is no timer exactly if the request does not ask for one (in the range the library reads). -/
theorem C22_no_timer_iff (pol : TimerPolicy) (hs : Headers) :
    acceptTimer pol hs = .noTimer ↔ ∀ d role, ¬ Asks hs d role := by
  constructor
  · intro h d role ha
    unfold acceptTimer at h
    rw [(asks_iff _ _ _).1 ha] at h
    simp only at h
    split at h <;> cases h
  · intro h
    unfold acceptTimer
    cases e : (hs.get "Session-Expires".toList).bind SessionExpires.parse with
    | none => rfl
    | some req => exact absurd ((asks_iff _ _ _).2 (by rw [e])) (h req.delta req.refresher)

/-! ## The refresher -/

theorem showNat_no {c : Char} (h : isDigit c = false) (n : Nat) : c ∉ showNat n := by
  intro hc
  have := showNat_digits n c hc
  rw [h] at this
  cases this

theorem role_text (r : Role) : RefresherIn ["refresher=".toList ++ r.asStr] (some r) := by
  cases r <;> exact (refresherIn_iff _ _).2 (by decide +kernel)

theorem seText_role (se : Nat) (r : Role) (h1 : 90 ≤ se) (h2 : se ≤ 86400) :
    SEText (showNat se ++ ";refresher=".toList ++ r.asStr) se (some r) := by
  have hdig := showNat_digits se
  have hfirst := showNat_ne_nil se
  have hctl : ∀ c ∈ showNat se ++ ";refresher=".toList ++ r.asStr, isControl c = false := by
    intro c hc
    rcases List.mem_append.1 hc with hc | hc
    · rcases List.mem_append.1 hc with hc | hc
      · have := hdig c hc
        simp only [isDigit, Bool.and_eq_true, decide_eq_true_eq, char_le_iff] at this
        have e1 : ('0' : Char).toNat = 48 := rfl
        have e2 : ('9' : Char).toNat = 57 := rfl
        simp only [isControl, Bool.or_eq_false_iff, Bool.and_eq_false_iff, decide_eq_false_iff_not]
        omega
      · exact (by decide : ∀ c ∈ ";refresher=".toList, isControl c = false) c hc
    · exact (by cases r <;> decide : ∀ c ∈ r.asStr, isControl c = false) c hc
  have hw : ∀ c ∈ showNat se, isWs c = false := (decimal_no_ws (decimal_showNat se)).2
  have htr : Trimmed (showNat se ++ ";refresher=".toList ++ r.asStr) := by
    constructor
    · intro c hc
      cases hs' : showNat se with
      | nil => exact absurd hs' hfirst
      | cons x xs =>
        rw [hs'] at hc
        simp at hc
        subst hc
        exact hw _ (by rw [hs']; exact List.mem_cons_self)
    · intro c hc
      cases r <;> simp [Role.asStr] at hc <;> subst hc <;> decide
  refine ⟨hctl, _, showNat se, ["refresher=".toList ++ r.asStr], showNat se, (strips_trim _ _).2 (trim_of_trimmed _ htr).symm,
    (pieces_iff _ _ _).2 ?_, (strips_trim _ _).2 (trim_of_trimmed _ (trimmed_of_all _ hw)).symm, decimal_showNat _, by omega, by omega,
    role_text r⟩
  have e : showNat se ++ ";refresher=".toList ++ r.asStr = showNat se ++ ';' :: ("refresher=".toList ++ r.asStr) := by simp
  rw [e, splitChar_append_sep _ _ _ (showNat_no (by decide) _)]
  rw [splitChar_of_not_mem]
  cases r <;> decide

theorem seText_plain (se : Nat) (h1 : 90 ≤ se) (h2 : se ≤ 86400) : SEText (showNat se) se none := by
  have hdig := showNat_digits se
  have hw : ∀ c ∈ showNat se, isWs c = false := (decimal_no_ws (decimal_showNat se)).2
  have ht : Strips isWs (showNat se) (showNat se) := (strips_trim _ _).2 (trim_of_trimmed _ (trimmed_of_all _ hw)).symm
  refine ⟨?_, _, showNat se, [], showNat se, ht, (pieces_iff _ _ _).2 ?_, ht, decimal_showNat _, h1, h2, ?_⟩
  · intro c hc
    have := hdig c hc
    simp only [isDigit, Bool.and_eq_true, decide_eq_true_eq, char_le_iff] at this
    have e1 : ('0' : Char).toNat = 48 := rfl
    have e2 : ('9' : Char).toNat = 57 := rfl
    simp only [isControl, Bool.or_eq_false_iff, Bool.and_eq_false_iff, decide_eq_false_iff_not]
    omega
  · rw [splitChar_of_not_mem]
    exact showNat_no (by decide) _
  · exact .absent (fun p hp => (by cases hp))

/-- **C22.** A Session-Expires value is read again as it was written. -/
theorem C22_roundtrip (s : SessionExpires) (h1 : 90 ≤ s.delta) (h2 : s.delta ≤ 86400) : SessionExpires.parse s.show = some s := by
  obtain ⟨n, r⟩ := s
  rw [C22_read]
  unfold SessionExpires.show
  cases r with
  | none => rw [List.append_nil]; exact seText_plain n h1 h2
  | some r => rw [← List.append_assoc]; exact seText_role n r h1 h2

example : SessionExpires.parse (SessionExpires.show ⟨1800, some .uas⟩) = some ⟨1800, some .uas⟩ := by decide +kernel

/-- **C22.** The value sent in the 200 is read by the caller as the interval and the refresher the callee works with, and
the refresher is the one the policy forces, else the one the request names, else the caller. -/
theorem C22_agree (pol : TimerPolicy) (hs : Headers) (v : Str) (n : Nat) (r : Role) (h : acceptTimer pol hs = .timer v n r)
    (hm : 90 ≤ pol.minSe) : SEText v n (some r) ∧
    (∀ f, pol.force = some f → r = f) ∧ (pol.force = none → ∀ d role, Asks hs d role → (∀ x, role = some x → r = x) ∧ (role = none → r = .uac)) := by
  obtain ⟨d, role, ha, h1, _, h2, _⟩ := C22_interval pol hs v n r h
  have hd : d ≤ 86400 := by
    obtain ⟨_, _, _, _, _, _, _, _, _, _, _, _, hh, _⟩ := ha
    exact hh
  unfold acceptTimer at h
  rw [(asks_iff _ _ _).1 ha] at h
  simp only at h
  split at h
  · cases h
  · rename_i se hse
    simp only [TimerOutcome.timer.injEq] at h
    obtain ⟨hv, hn, hr⟩ := h
    subst hn
    refine ⟨?_, ?_, ?_⟩
    · rw [hr] at hv
      rw [← hv]
      exact seText_role _ r (by omega) (by omega)
    · intro f hf; rw [hf] at hr; exact hr.symm
    · intro hf d' role' ha'
      obtain ⟨rfl, rfl⟩ := asks_unique ha ha'
      rw [hf] at hr
      cases role with
      | none => exact ⟨by simp, fun _ => hr.symm⟩
      | some x => exact ⟨fun y hy => by injection hy with hy; rw [← hy]; exact hr.symm, by simp⟩

/-- **C22.** Whatever the refresher parameter, exactly one of the two sides takes itself for the refresher. -/
theorem C22_exactly_one (param : Option Str) : determineRole param true = !determineRole param false := by
  unfold determineRole
  cases param with
  | none => rfl
  | some p => repeat' (split <;> try rfl)

/-- **C22.** A lower-case or upper-case role decides. -/
theorem C22_role (isUac : Bool) : determineRole (some "uac".toList) isUac = isUac ∧ determineRole (some "UAC".toList) isUac = isUac ∧
    determineRole (some "uas".toList) isUac = !isUac ∧ determineRole (some "UAS".toList) isUac = !isUac ∧
    determineRole none isUac = isUac := ⟨rfl, rfl, rfl, rfl, rfl⟩

def seH (v : String) : Headers := { inner := [{ name := "Session-Expires".toList, value := v.toList }, { name := "Min-SE".toList, value := "120".toList }] }

example : acceptTimer { minSe := 90, preferred := some 600, force := none } (seH "1800;refresher=uas") =
    .timer "600;refresher=uas".toList 600 .uas := by decide +kernel
example : acceptTimer { minSe := 90, preferred := some 60, force := none } (seH "100") = .tooSmall 120 := by decide +kernel
example : Asks (seH "1800;refresher=uas") 1800 (some .uas) := (asks_iff _ _ _).2 (by decide +kernel)

/-! ## What goes wrong -/

/-- **C22, violated.** An interval below 90 s is not refused with 422: the header is dropped and the call goes on without a
timer. -/
theorem C22_short_ignored (pol : TimerPolicy) : acceptTimer pol (seH "60") = .noTimer := by
  have : ((seH "60").get "Session-Expires".toList).bind SessionExpires.parse = none := by decide +kernel
  unfold acceptTimer
  rw [this]

/-- **C22, violated.** Nothing keeps the configured minimum at 90 s or more; with less the 200 names an interval the
caller's own library does not read, so the caller has no timer. -/
theorem C22_unreadable : ∃ hs v, Asks hs 1800 none ∧
    acceptTimer { minSe := 30, preferred := some 60, force := none } hs = .timer v 60 .uac ∧ ∀ n role, ¬ SEText v n role :=
  ⟨{ inner := [{ name := "Session-Expires".toList, value := "1800".toList }] }, "60;refresher=uac".toList,
    (asks_iff _ _ _).2 (by decide +kernel), by decide +kernel, fun n role h => by
      have h := (C22_read _ _ _).2 h
      rw [show SessionExpires.parse "60;refresher=uac".toList = none by decide +kernel] at h
      cases h⟩

/-- **C22, violated.** The two ways the library has of reading the refresher disagree about `refresher=Uas`. -/
theorem C22_case_disagrees : SEText "1800;refresher=Uas".toList 1800 (some .uas) ∧
    determineRole (some "Uas".toList) true = true ∧ determineRole (some "uas".toList) true = false :=
  ⟨(C22_read _ _ _).1 (by decide +kernel), by decide, by decide⟩

/-- **C22, violated.** siphond answers calls, so it is the UAS, but takes itself for the refresher when the header names the
caller: then both sides refresh, and if the header names the callee neither does. -/
theorem C22_siphond_inverted : siphondRefreshes (some .uac) = true ∧ determineRole (some Role.uac.asStr) true = true ∧
    siphondRefreshes (some .uas) = false ∧ determineRole (some Role.uas.asStr) true = false := by decide

end Siphon.Dlg
