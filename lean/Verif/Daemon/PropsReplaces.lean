import Verif.Daemon.SpecReplaces
import Verif.Daemon.PropsWithin
import Verif.Sub.ReferProps
import Verif.Registrar.PropsOwner
set_option linter.unusedSimpArgs false
set_option linter.unusedVariables false
/-!
# C121: INVITEs with Replaces
-/
namespace Siphon.Daemon
open HdrSpec TextSpec
open Siphon.Dlg.Spec
open Siphon.Dlg (Dialog DialogId first_iff absent_iff)
open Spec

/-! ## The header -/

theorem begins_iff (name : String) (q : Str) : (∃ y, Strips isWs q (name.toList ++ y)) ↔ name.toList.isPrefixOf (trim q) = true := by
  rw [List.isPrefixOf_iff_prefix]
  constructor
  · rintro ⟨y, h⟩
    exact ⟨y, (strips_trim _ _).mp h⟩
  · rintro ⟨y, h⟩
    exact ⟨y, (strips_trim _ _).mpr h⟩

theorem lastParam_nil (name : String) (v : Str) : ¬ LastParam name [] v := by
  rintro ⟨a, p, b, x, h, _⟩
  cases a <;> cases h

theorem lastParam_cons (name : String) (p : Str) (ps : List Str) (v : Str) :
    LastParam name (p :: ps) v ↔ LastParam name ps v ∨ ((∀ w, ¬ LastParam name ps w) ∧ ∃ x, Strips isWs p (name.toList ++ x) ∧ Strips isWs x v) := by
  constructor
  · rintro ⟨a, q, b, x, h, h1, h2, h3⟩
    cases a with
    | nil =>
      simp only [List.nil_append, List.cons.injEq] at h
      obtain ⟨rfl, rfl⟩ := h
      refine .inr ⟨?_, x, h1, h2⟩
      rintro w ⟨a', q', b', x', h', h1', _⟩
      exact h3 q' (by rw [h']; simp) x' h1'
    | cons e a =>
      simp only [List.cons_append, List.cons.injEq] at h
      obtain ⟨rfl, rfl⟩ := h
      exact .inl ⟨a, q, b, x, rfl, h1, h2, h3⟩
  · rintro (⟨a, q, b, x, rfl, h1, h2, h3⟩ | ⟨h, x, h1, h2⟩)
    · exact ⟨p :: a, q, b, x, rfl, h1, h2, h3⟩
    · refine ⟨[], p, ps, x, rfl, h1, h2, ?_⟩
      -- the last parameter of this name in `ps` would be a value of it
      have key : ∀ (l : List Str), (∃ q ∈ l, ∃ y, Strips isWs q (name.toList ++ y)) → ∃ w, LastParam name l w := by
        intro l
        induction l with
        | nil => rintro ⟨q, hq, _⟩; cases hq
        | cons q l ih =>
          intro hl
          by_cases hin : ∃ q ∈ l, ∃ y, Strips isWs q (name.toList ++ y)
          · obtain ⟨w, a, q', b, x, rfl, h1, h2, h3⟩ := ih hin
            exact ⟨w, q :: a, q', b, x, rfl, h1, h2, h3⟩
          · obtain ⟨q', hq', y, hy⟩ := hl
            rw [List.mem_cons] at hq'
            rcases hq' with rfl | hq'
            · exact ⟨_, [], q', l, y, rfl, hy, (strips_trim y _).mpr rfl, fun q hq z hz => hin ⟨q, hq, z, hz⟩⟩
            · exact absurd ⟨q', hq', y, hy⟩ hin
      intro q hq y hy
      obtain ⟨w, hw⟩ := key ps ⟨q, hq, y, hy⟩
      exact h w hw

theorem param_value {name : String} {p x v : Str} (h1 : Strips isWs p (name.toList ++ x)) (h2 : Strips isWs x v) :
    v = trim ((trim p).drop name.toList.length) := by
  rw [← (strips_trim _ _).mp h1, List.drop_left]
  exact (strips_trim _ _).mp h2

theorem tags_iff : ∀ (ps : List Str) (t f : Option Str),
    (∀ v, (replacesTags ps (t, f)).1 = some v ↔ LastParam "to-tag=" ps v ∨ ((∀ w, ¬ LastParam "to-tag=" ps w) ∧ t = some v)) ∧
      (∀ v, (replacesTags ps (t, f)).2 = some v ↔ LastParam "from-tag=" ps v ∨ ((∀ w, ¬ LastParam "from-tag=" ps w) ∧ f = some v))
  | [], t, f => by
    unfold replacesTags
    refine ⟨fun v => ⟨fun h => .inr ⟨fun w => lastParam_nil _ _, h⟩, ?_⟩, fun v => ⟨fun h => .inr ⟨fun w => lastParam_nil _ _, h⟩, ?_⟩⟩
    all_goals
      rintro (h | ⟨_, h⟩)
      · exact absurd h (lastParam_nil _ _)
      · exact h
  | p :: ps, t, f => by
    -- of a parameter with this name, and of one without it
    have yes : ∀ (name : String) (t v : Str), t = trim ((trim p).drop name.toList.length) → name.toList.isPrefixOf (trim p) = true →
        ((LastParam name ps v ∨ ((∀ w, ¬ LastParam name ps w) ∧ some t = some v)) ↔
          (LastParam name (p :: ps) v ∨ ((∀ w, ¬ LastParam name (p :: ps) w) ∧ False))) := by
      intro name t v ht hp
      obtain ⟨x, hx⟩ := (begins_iff name p).mpr hp
      rw [lastParam_cons]
      constructor
      · rintro (h | ⟨h, h'⟩)
        · exact .inl (.inl h)
        · refine .inl (.inr ⟨h, x, hx, ?_⟩)
          rw [← Option.some.inj h', ht, ← (strips_trim _ _).mp hx, List.drop_left]
          exact (strips_trim _ _).mpr rfl
      · rintro ((h | ⟨h, y, h1, h2⟩) | ⟨_, h⟩)
        · exact .inl h
        · exact .inr ⟨h, by rw [ht, param_value h1 h2]⟩
        · exact h.elim
    have anyLast : ∀ (name : String), name.toList.isPrefixOf (trim p) = true → ∃ w, LastParam name (p :: ps) w := by
      intro name hp
      by_cases h : ∃ w, LastParam name ps w
      · obtain ⟨w, h⟩ := h
        exact ⟨w, (lastParam_cons _ _ _ _).mpr (.inl h)⟩
      · obtain ⟨x, hx⟩ := (begins_iff name p).mpr hp
        exact ⟨_, (lastParam_cons _ _ _ _).mpr (.inr ⟨fun w hw => h ⟨w, hw⟩, x, hx, (strips_trim _ _).mpr rfl⟩)⟩
    have no : ∀ (name : String) (v : Str), name.toList.isPrefixOf (trim p) = false → (LastParam name (p :: ps) v ↔ LastParam name ps v) := by
      intro name v hp
      rw [lastParam_cons]
      constructor
      · rintro (h | ⟨_, x, h, _⟩)
        · exact h
        · exact absurd ((begins_iff name p).mp ⟨x, h⟩) (by rw [hp]; decide)
      · exact .inl
    have finish : ∀ (name : String) (t : Option Str) (t' : Str) (v : Str), t' = trim ((trim p).drop name.toList.length) → name.toList.isPrefixOf (trim p) = true →
        ((LastParam name ps v ∨ ((∀ w, ¬ LastParam name ps w) ∧ some t' = some v)) ↔
          (LastParam name (p :: ps) v ∨ ((∀ w, ¬ LastParam name (p :: ps) w) ∧ t = some v))) := by
      intro name t t' v h1 h2
      rw [yes name t' v h1 h2]
      constructor
      · rintro (h | ⟨_, h⟩)
        · exact .inl h
        · exact h.elim
      · rintro (h | ⟨h, _⟩)
        · exact .inl h
        · obtain ⟨w, hw⟩ := anyLast name h2
          exact absurd hw (h w)
    have keep : ∀ (name : String) (t : Option Str) (v : Str), name.toList.isPrefixOf (trim p) = false →
        ((LastParam name ps v ∨ ((∀ w, ¬ LastParam name ps w) ∧ t = some v)) ↔
          (LastParam name (p :: ps) v ∨ ((∀ w, ¬ LastParam name (p :: ps) w) ∧ t = some v))) := by
      intro name t v h
      rw [no name v h]
      have : (∀ w, ¬ LastParam name (p :: ps) w) ↔ ∀ w, ¬ LastParam name ps w := forall_congr' fun w => not_congr (no name w h)
      rw [this]
    unfold replacesTags
    simp only
    by_cases h1 : "to-tag=".toList.isPrefixOf (trim p) = true
    · rw [if_pos h1]
      have h2 : "from-tag=".toList.isPrefixOf (trim p) = false := by
        cases hq : trim p with
        | nil => rfl
        | cons c l =>
          rw [hq] at h1
          have hc : c = 't' := by
            have : ("to-tag=".toList.isPrefixOf (c :: l)) = (('t' == c) && "o-tag=".toList.isPrefixOf l) := rfl
            rw [this] at h1
            simp only [Bool.and_eq_true, beq_iff_eq] at h1
            exact h1.1.symm
          subst hc
          show (('f' == 't') && _) = false
          rfl
      obtain ⟨i1, i2⟩ := tags_iff ps (some (trim ((trim p).drop 7))) f
      exact ⟨fun v => (i1 v).trans (finish "to-tag=" t _ v rfl h1), fun v => (i2 v).trans (keep "from-tag=" f v h2)⟩
    · rw [if_neg h1]
      by_cases h2 : "from-tag=".toList.isPrefixOf (trim p) = true
      · rw [if_pos h2]
        obtain ⟨i1, i2⟩ := tags_iff ps t (some (trim ((trim p).drop 9)))
        exact ⟨fun v => (i1 v).trans (keep "to-tag=" t v (Bool.eq_false_iff.mpr h1)), fun v => (i2 v).trans (finish "from-tag=" f _ v rfl h2)⟩
      · rw [if_neg h2]
        obtain ⟨i1, i2⟩ := tags_iff ps t f
        exact ⟨fun v => (i1 v).trans (keep "to-tag=" t v (Bool.eq_false_iff.mpr h1)), fun v => (i2 v).trans (keep "from-tag=" f v (Bool.eq_false_iff.mpr h2))⟩

theorem replacesOf_iff (v : Str) (i : DialogId) : ReplacesOf v i ↔ parseReplaces v = some i := by
  have tg : ∀ ps, (∀ x, (replacesTags ps (none, none)).1 = some x ↔ LastParam "to-tag=" ps x) ∧
      (∀ x, (replacesTags ps (none, none)).2 = some x ↔ LastParam "from-tag=" ps x) := by
    intro ps
    obtain ⟨h1, h2⟩ := tags_iff ps none none
    refine ⟨fun x => (h1 x).trans ⟨?_, .inl⟩, fun x => (h2 x).trans ⟨?_, .inl⟩⟩
    all_goals
      rintro (h | ⟨_, h⟩)
      · exact h
      · cases h
  constructor
  · rintro ⟨c, ps, h1, h2, h3, h4, h5, h6, h7⟩
    have e := (pieces_iff _ _ _).mp h1
    unfold parseReplaces
    rw [← e]
    simp only
    rw [← (strips_trim _ _).mp h2, if_neg (by simpa using h3)]
    have a1 := ((tg ps).1 _).mpr h4
    have a2 := ((tg ps).2 _).mpr h6
    generalize replacesTags ps (none, none) = x at a1 a2
    obtain ⟨x1, x2⟩ := x
    simp only at a1 a2
    subst a1 a2
    simp only
    rw [if_neg (by simp [h5, h7])]
  · intro h
    unfold parseReplaces at h
    cases e : splitChar ';' v with
    | nil => rw [e] at h; cases h
    | cons c ps =>
      rw [e] at h
      simp only at h
      split at h
      · cases h
      · rename_i hc
        have a1 := (tg ps).1
        have a2 := (tg ps).2
        generalize replacesTags ps (none, none) = x at a1 a2 h
        obtain ⟨x1, x2⟩ := x
        cases x1 with
        | none => cases h
        | some t =>
          cases x2 with
          | none => cases h
          | some f =>
            simp only at h
            split at h
            · cases h
            · rename_i hne
              cases h
              simp only [Bool.or_eq_true, List.isEmpty_iff, not_or] at hne
              exact ⟨c, ps, (pieces_iff _ _ _).mpr e.symm, (strips_trim _ _).mpr rfl, by simpa using hc, (a1 t).mp rfl, hne.1, (a2 f).mp rfl, hne.2⟩

/-! ## Who may replace -/

theorem authUser_of {hs : Headers} {u : Str} (h : Auth.extractAuthUsername hs = some u) : AuthUser hs u := by
  unfold Auth.extractAuthUsername at h
  simp only at h
  cases ha : hs.get "Authorization".toList with
  | some raw =>
    exact .inl (Registrar.extractAuthUsername_some ha (by unfold Auth.extractAuthUsername; exact h))
  | none =>
    rw [ha] at h
    simp only at h
    refine .inr ⟨(absent_iff _ _).mpr ha, ?_⟩
    cases hp : hs.get "Proxy-Authorization".toList with
    | none => rw [hp] at h; cases h
    | some raw =>
      rw [hp] at h
      simp only at h
      split at h
      · cases h
      · rename_i p hpa
        split at h
        · cases h
        · rename_i hd
          exact (Auth.presents_iff (proxy := true) hp hpa (by simpa using hd) "username" u (by decide)).mpr h

theorem party_iff (c : Cfg) (d : Dialog) (u : Str) : (d.localUri.user.toList ++ d.remoteUri.user.toList).any (fun du => sameUser c du u) = true ↔ Party c d u := by
  rw [List.any_eq_true]
  unfold Party sameUser
  constructor
  · rintro ⟨w, hw, h⟩
    rw [List.mem_append, Option.mem_toList, Option.mem_toList] at hw
    exact ⟨w, hw.imp (fun h => h) (fun h => h), (sameName_iff _ _).mpr h⟩
  · rintro ⟨w, hw, h⟩
    refine ⟨w, ?_, (sameName_iff _ _).mp h⟩
    rw [List.mem_append, Option.mem_toList, Option.mem_toList]
    exact hw.imp (fun h => h) (fun h => h)

theorem fromUser_iff (hs : Headers) (u : Str) : FromUser hs u ↔ ∃ t, (hs.get "From".toList).bind Sub.parseNameAddr = some t ∧ t.user = some u := by
  unfold FromUser
  constructor
  · rintro ⟨v, t, h1, h2, h3⟩
    rw [(first_iff _ _ _).mp h1]
    exact ⟨t, (Sub.target_iff _ _).mp h2, h3⟩
  · rintro ⟨t, h1, h2⟩
    cases hf : hs.get "From".toList with
    | none => rw [hf] at h1; cases h1
    | some v =>
      rw [hf] at h1
      exact ⟨v, t, (first_iff _ _ _).mpr hf, (Sub.target_iff _ _).mpr h1, h2⟩

theorem mayReplace_sound {c : Cfg} {rq : Request} {d : Dialog} (h : mayReplace c rq d = true) : ∃ u, Sender c rq.headers u ∧ Party c d u := by
  unfold mayReplace at h
  simp only at h
  split at h
  · rename_i ha
    split at h
    · rename_i u hu
      exact ⟨u, .inl ⟨ha, authUser_of hu⟩, (party_iff c d u).mp h⟩
    · cases h
  · rename_i ha
    split at h
    · cases h
    · rename_i f hf
      split at h
      · cases h
      · rename_i u hu
        exact ⟨u, .inr ⟨by simpa using ha, (fromUser_iff _ _).mpr ⟨f, hf, hu⟩⟩, (party_iff c d u).mp h⟩

theorem mayReplace_from {c : Cfg} {rq : Request} {d : Dialog} {u : Str} (ha : c.auth = false) (hu : FromUser rq.headers u) (hp : Party c d u) :
    mayReplace c rq d = true := by
  obtain ⟨t, h1, h2⟩ := (fromUser_iff _ _).mp hu
  unfold mayReplace
  simp only [ha, Bool.false_eq_true, if_false, h1, h2]
  exact (party_iff c d u).mpr hp

theorem mayReplace_auth {c : Cfg} {rq : Request} {d : Dialog} {raw u : Str} {a : Auth.AuthHeader} (ha : c.auth = true)
    (hr : First rq.headers "Authorization" raw) (hpa : Auth.parseAuthorization raw = some a)
    (hu : Auth.Spec.Presents false rq.headers "username" u) (hp : Party c d u) : mayReplace c rq d = true := by
  have hg := (first_iff _ _ _).mp hr
  have hd : eqIgnoreCase a.scheme "Digest".toList = true := by
    obtain ⟨raw', more, scheme, h1, h2, h3⟩ := hu
    have : raw' = raw := by
      have := (first_iff rq.headers "Authorization" raw').mp ⟨more, h1⟩
      rw [hg] at this
      exact (Option.some.inj this).symm
    subst this
    rw [← Auth.parseAuthorization_scheme hpa h3]
    exact (sameName_iff _ _).mp h2
  have hx : Auth.extractAuthUsername rq.headers = some u := by
    unfold Auth.extractAuthUsername
    simp only [hg, hpa, hd, Bool.not_true, Bool.false_eq_true, if_false]
    exact (Auth.presents_iff (proxy := false) hg hpa hd "username" u (by decide)).mp hu
  unfold mayReplace
  simp only [ha, if_true, hx]
  exact (party_iff c d u).mpr hp

/-! ## The INVITE -/

theorem invite_step {c : Cfg} {st : St} {txn : Nat} {rq : Request} {i : Info} (hf : Fine rq) (had : Admitted c rq i) (hm : rq.method = .invite)
    (hn : ∀ j, Names rq.headers j.callId j.remoteTag j.localTag → st.dialogs.get j = none) :
    step c st (.request txn rq i) = match replacesRefused c st rq with
      | some (code, reason) => reply st txn (plain rq i code reason)
      | none => greet c st txn rq i := by
  rw [admitted_step had]
  unfold handle
  rw [hm]
  simp only [List.contains_cons, beq_self_eq_true, Bool.true_or, if_true, had.calls, Bool.not_true, Bool.false_eq_true, if_false]
  unfold onInvite
  rw [had.calls, find_none hf.ascii hn]
  simp only [Bool.not_true, Bool.false_eq_true, if_false]
  cases replacesRefused c st rq <;> rfl

theorem refused_step {c : Cfg} {st : St} {txn : Nat} {rq : Request} {i : Info} (hf : Fine rq) (ht : GoodTag i.tag) (had : Admitted c rq i)
    (hm : rq.method = .invite) (hn : ∀ j, Names rq.headers j.callId j.remoteTag j.localTag → st.dialogs.get j = none) {code : Nat} {reason : String}
    (hc : 101 ≤ code ∧ code ≤ 699) (hre : Uas.ReasonOk reason.toList) (h : replacesRefused c st rq = some (code, reason)) :
    ∃ r, step c st (.request txn rq i) = (st, [.final txn r]) ∧ Answers rq code i.tag r ∧ r.body = [] := by
  obtain ⟨r, h1, h2, h3⟩ := plain_done (reason := reason) hf ht (code := code) (by omega) hre
  refine ⟨r, ?_, h2, h3⟩
  rw [invite_step hf had hm hn, h]
  simp only [h1]
  rfl

/-- C121: an INVITE whose Replaces header cannot be read is answered with 400, and changes nothing. -/
theorem C121_malformed (c : Cfg) (st : St) (txn : Nat) (rq : Request) (i : Info) (v : Str) (hf : Fine rq) (ht : GoodTag i.tag) (had : Admitted c rq i)
    (hm : rq.method = .invite) (hn : ∀ j, Names rq.headers j.callId j.remoteTag j.localTag → st.dialogs.get j = none)
    (hv : First rq.headers "Replaces" v) (hbad : ∀ j, ¬ ReplacesOf v j) :
    ∃ r, step c st (.request txn rq i) = (st, [.final txn r]) ∧ Answers rq 400 i.tag r ∧ r.body = [] := by
  refine refused_step hf ht had hm hn (reason := "Bad Request") (by omega) (by unfold Uas.ReasonOk; decide) ?_
  unfold replacesRefused
  rw [(first_iff _ _ _).mp hv]
  have : parseReplaces v = none := by
    cases h : parseReplaces v with
    | none => rfl
    | some j => exact absurd ((replacesOf_iff v j).mpr h) (hbad j)
  simp only [this]

/-- C121: an INVITE that would replace a call that is not there, or in which its sender has no part, is answered with 481, and changes
nothing. -/
theorem C121_refused (c : Cfg) (st : St) (txn : Nat) (rq : Request) (i : Info) (v : Str) (j : DialogId) (hf : Fine rq) (ht : GoodTag i.tag) (had : Admitted c rq i)
    (hm : rq.method = .invite) (hn : ∀ j, Names rq.headers j.callId j.remoteTag j.localTag → st.dialogs.get j = none)
    (hv : First rq.headers "Replaces" v) (hj : ReplacesOf v j)
    (h : st.dialogs.get j = none ∨ ∃ d, st.dialogs.get j = some d ∧ ∀ u, Sender c rq.headers u → ¬ Party c d u) :
    ∃ r, step c st (.request txn rq i) = (st, [.final txn r]) ∧ Answers rq 481 i.tag r ∧ r.body = [] := by
  refine refused_step hf ht had hm hn (reason := "Call/Transaction Does Not Exist") (by omega) (by unfold Uas.ReasonOk; decide) ?_
  unfold replacesRefused
  rw [(first_iff _ _ _).mp hv]
  simp only [(replacesOf_iff v j).mp hj]
  rcases h with h | ⟨d, h, hno⟩
  · rw [h]
  · rw [h]
    simp only
    have : mayReplace c rq d = false := by
      cases hmr : mayReplace c rq d with
      | false => rfl
      | true =>
        obtain ⟨u, h1, h2⟩ := mayReplace_sound hmr
        exact absurd h2 (hno u h1)
    rw [this]
    rfl

/-- C121: an INVITE by one of the two in the call it names is taken like one without Replaces. -/
theorem C121_taken (c : Cfg) (st : St) (txn : Nat) (rq : Request) (i : Info) (me : SipUri) (v : Str) (j : DialogId) (d : Dialog) (u : Str) (hf : Fine rq)
    (ht : GoodTag i.tag) (had : Admitted c rq i) (hm : rq.method = .invite)
    (hn : ∀ j, Names rq.headers j.callId j.remoteTag j.localTag → st.dialogs.get j = none) (hv : First rq.headers "Replaces" v) (hj : ReplacesOf v j)
    (hd : st.dialogs.get j = some d) (hp : Party c d u)
    (hu : (c.auth = false ∧ FromUser rq.headers u) ∨
      (c.auth = true ∧ Auth.Spec.Presents false rq.headers "username" u ∧ ∃ raw a, First rq.headers "Authorization" raw ∧ Auth.parseAuthorization raw = some a))
    (hme : SipUri.parse c.localUri = some me) :
    (c.autoAccept = false → ∃ r, step c st (.request txn rq i) = (st, [.final txn r]) ∧ Answers rq 486 i.tag r ∧ r.body = []) ∧
    (c.autoAccept = true → ∃ r, step c st (.request txn rq i) =
        ({ st with tasks := st.tasks.insert st.next (.trying txn rq me), next := st.next + 1 }, [.provisional txn r]) ∧
      Answers rq 100 i.tag r ∧ r.body = []) := by
  have hr : replacesRefused c st rq = none := by
    unfold replacesRefused
    rw [(first_iff _ _ _).mp hv]
    simp only [(replacesOf_iff v j).mp hj, hd]
    rcases hu with ⟨ha, hu⟩ | ⟨ha, hu, raw, a, h1, h2⟩
    · rw [mayReplace_from ha hu hp]; rfl
    · rw [mayReplace_auth ha h1 h2 hu hp]; rfl
  have hgo : step c st (.request txn rq i) = greet c st txn rq i := by
    rw [invite_step hf had hm hn, hr]
  rw [hgo]
  constructor
  · intro ha
    obtain ⟨r, h1, h2, h3⟩ := plain_done (reason := "Busy Here") hf ht (code := 486) (by omega) (by unfold Uas.ReasonOk; decide)
    exact ⟨r, by unfold greet; rw [ha, h1]; rfl, h2, h3⟩
  · intro ha
    obtain ⟨r, h1, h2, h3⟩ := plain_done (reason := "Trying") hf ht (code := 100) (by omega) (by unfold Uas.ReasonOk; decide)
    refine ⟨r, ?_, h2, h3⟩
    unfold greet
    rw [ha, timerTooSmall_none]
    simp only [ite_self, Bool.not_true, Bool.false_eq_true, if_false, hme, h1]
    rfl

/-- C121: an INVITE with Replaces that is let through at all names a call in which its sender has a part. -/
theorem C121_only (c : Cfg) (st : St) (txn : Nat) (rq : Request) (i : Info) (v : Str) (hf : Fine rq) (ht : GoodTag i.tag) (had : Admitted c rq i)
    (hm : rq.method = .invite) (hn : ∀ j, Names rq.headers j.callId j.remoteTag j.localTag → st.dialogs.get j = none)
    (hv : First rq.headers "Replaces" v)
    (h : ∀ r, step c st (.request txn rq i) = (st, [.final txn r]) → ¬ (r.code = 400 ∨ r.code = 481)) :
    ∃ j d u, ReplacesOf v j ∧ st.dialogs.get j = some d ∧ Sender c rq.headers u ∧ Party c d u := by
  apply Classical.byContradiction
  intro hno
  by_cases hj : ∃ j, ReplacesOf v j
  · obtain ⟨j, hj⟩ := hj
    obtain ⟨r, h1, h2, _⟩ := C121_refused c st txn rq i v j hf ht had hm hn hv hj (by
      cases hd : st.dialogs.get j with
      | none => exact .inl rfl
      | some d => exact .inr ⟨d, rfl, fun u h1 h2 => hno ⟨j, d, u, hj, hd, h1, h2⟩⟩)
    exact h r h1 (.inr h2.status)
  · obtain ⟨r, h1, h2, _⟩ := C121_malformed c st txn rq i v hf ht had hm hn hv (fun j h => hj ⟨j, h⟩)
    exact h r h1 (.inl h2.status)

end Siphon.Daemon
