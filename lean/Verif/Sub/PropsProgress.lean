import Verif.Sub.ReferProps
import Verif.Dialog.PropsMatch
set_option linter.unusedSimpArgs false
/-!
# C105: the subscription of a REFER and the progress of the call
-/
namespace Siphon.Sub
open Spec TextSpec HdrSpec Dlg.Spec

/-! ## The subscription -/

theorem number_iff (rq : Headers) (n : Nat) : NumberOf rq n ↔
    (match rq.get "CSeq".toList with
      | none => 1
      | some v =>
        match splitWhitespace v with
        | [] => 1
        | w :: _ =>
          match parseDec 4294967295 w with
          | none => 1
          | some n => n) = n := by
  have key : ∀ k, CSeqOf rq k ↔ ∃ v w ws, rq.get "CSeq".toList = some v ∧ splitWhitespace v = w :: ws ∧ parseDec 4294967295 w = some k := by
    intro k
    unfold CSeqOf
    constructor
    · rintro ⟨v, w, ws, h1, h2, h3, h4⟩
      exact ⟨v, w, ws, (Dlg.first_iff _ _ _).1 h1, (words_iff _ _).1 h2, (parseDec_iff _ _ _).2 ⟨h3, by omega⟩⟩
    · rintro ⟨v, w, ws, h1, h2, h3⟩
      obtain ⟨h3, h4⟩ := (parseDec_iff _ _ _).1 h3
      exact ⟨v, w, ws, (Dlg.first_iff _ _ _).2 h1, (words_iff _ _).2 h2, h3, by omega⟩
  unfold NumberOf
  simp only [key]
  cases hv : rq.get "CSeq".toList with
  | none => simp [eq_comm]
  | some v =>
    cases hw : splitWhitespace v with
    | nil => simp [hw, eq_comm]
    | cons w ws =>
      cases hp : parseDec 4294967295 w with
      | none => simp [hw, hp, eq_comm]
      | some k => simp [hw, hp, eq_comm]

theorem number_unique {rq : Headers} {n k : Nat} (h : NumberOf rq n) (h' : NumberOf rq k) : n = k := by
  rw [number_iff] at h h'
  exact h.symm.trans h'

theorem sub_some {rq rs : Headers} {l : SipUri} {s : Sub} (h : buildReferSubscription rq rs l = some s) :
    ReferNamed rq rs s.id ∧ GoesTo rq s.contact ∧ NumberOf rq s.localCSeq ∧ s.state = .active ∧ s.localUri = l ∧
      s.expires = 3600 ∧ ∃ f, First rq "From" f ∧ Target f s.remoteUri := by
  unfold buildReferSubscription at h
  split at h
  · rename_i c f t hc hf ht
    split at h
    · rename_i ft tt hft htt
      split at h
      · cases h
      · rename_i remote hr
        simp only [Option.some.injEq] at h
        subst h
        have hF := (Dlg.first_iff _ _ _).2 hf
        have hR := (target_iff _ _).2 hr
        refine ⟨⟨(Dlg.first_iff _ _ _).2 hc, ⟨f, hF, (smallTag_iff _ _).2 hft⟩,
          ⟨t, (Dlg.first_iff _ _ _).2 ht, (smallTag_iff _ _).2 htt⟩, rfl⟩, ?_, (number_iff _ _).2 rfl, rfl, rfl, rfl, f, hF, hR⟩
        simp only
        split
        · rename_i hn
          refine .from ?_ hF hR
          intro v w hv
          rw [Dlg.first_iff, hn] at hv
          cases hv
        · rename_i v hv
          split
          · rename_i hn
            refine .from ?_ hF hR
            intro v' w hv' hw
            obtain rfl := Dlg.first_unique ((Dlg.first_iff _ _ _).2 hv) hv'
            rw [target_iff, hn] at hw
            cases hw
          · rename_i u hu
            exact .contact ((Dlg.first_iff _ _ _).2 hv) ((target_iff _ _).2 hu)
    · cases h
  · cases h

/-- all NOTIFYs were made for this subscription -/
def Made (l : SipUri) (s : Sub) (t : Told) : Prop :=
  (∃ n, t.1 = { s with localCSeq := n }) ∧
  ∀ q ∈ t.2, ∃ n c b code reason e, createNotifySipfrag l c b { s with localCSeq := n } code reason = .done (some (q, e))

theorem made_tell {l : SipUri} {br : Nat → Str} {p p' : Told} {code : Nat} {reason : Str} {s : Sub} (hp : Made l s p)
    (h : tell l br p code reason = .done p') : Made l s p' := by
  by_cases ht : Tellable reason
  · obtain ⟨r, h1, h2, h3, h4⟩ := tell_some ht h
    obtain ⟨⟨n, e⟩, hq⟩ := hp
    refine ⟨⟨n + 1, by rw [h3, e]⟩, ?_⟩
    intro q hm
    rw [h1, List.mem_append, List.mem_singleton] at hm
    rcases hm with hm | rfl
    · exact hq q hm
    · rw [e] at h4
      exact ⟨n, _, _, _, _, _, h4⟩
  · rw [tell_none ht] at h
    cases h
    exact hp

theorem made_tellAll {l : SipUri} {br : Nat → Str} {s : Sub} : ∀ (cs : List (Nat × Str)) {p p' : Told}, Made l s p →
    tellAll l br p cs = .done p' → Made l s p'
  | [], p, p', hp, h => by cases h; exact hp
  | (c, r) :: cs, p, p', hp, h => by
    simp only [tellAll, Run.bind_eq_done] at h
    obtain ⟨q, h1, h2⟩ := h
    exact made_tellAll cs (made_tell hp h1) h2

theorem made_transfer {cfg : RCfg} {rnd : Rand} {t t' : Told} {v : Str} {after : After} {s : Sub} (hp : Made cfg.localUri s t)
    (h : transfer cfg rnd t v = .done after) (ht : after.told = some t') : Made cfg.localUri s t' := by
  cases after with
  | nothing => cases ht
  | failed q =>
    cases ht
    rcases transfer_failed h with ⟨_, h⟩ | ⟨_, _, _, _, _, _, _, _, _, h⟩ | ⟨_, _, _, _, _, _, _, _, _, h⟩
    · exact made_tell hp h
    · exact made_tell hp h
    · exact made_tell hp h
  | calling q inv a p tr =>
    cases ht
    obtain ⟨_, _, _, _, _, _, _, _, _, e, _⟩ := transfer_calling h
    rw [e]
    exact hp

theorem made_refer {cfg : RCfg} {ds : Dlg.Mgr} {m m' : SubMgr} {rq : Request} {rnd : Rand} {r : Response} {after : After} {t : Told}
    (h : handleRefer cfg ds m rq rnd = .done (.accepted r after, m')) (ht : after.told = some t) :
    ∃ s, buildReferSubscription rq.headers r.headers cfg.localUri = some s ∧ Made cfg.localUri s t ∧ m' = (m.insert s).2 := by
  obtain ⟨v, d, hv, _, _, _, _, h⟩ := refer_accepted h
  rcases h with ⟨_, h, _⟩ | ⟨s, t', hs, hm, h1, h2⟩
  · rw [h] at ht; cases ht
  · exact ⟨s, hs, made_transfer (made_tell ⟨⟨s.localCSeq, rfl⟩, by simp⟩ h1) h2 ht, hm⟩

theorem reportAll_snoc {n : Nat} {rs : List Request} {ds : List (Nat × Str)} {x : Request} {c : Nat} {r : Str}
    (h : ReportAll n rs ds) (hx : Reports x (n + ds.length) c r) : ReportAll n (rs ++ [x]) (ds ++ [(c, r)]) := by
  induction h with
  | nil => exact .cons (by simpa using hx) .nil
  | @cons n r' rs code reason cs' h1 h2 ih =>
    refine .cons h1 (ih ?_)
    rw [show n + 1 + cs'.length = n + ((code, reason) :: cs').length by simp; omega]
    exact hx

/-- all outcomes that can be told are told -/
theorem tellAll_reports {l : SipUri} {br : Nat → Str} : ∀ (cs : List (Nat × Str)) {p p' : Told} {n : Nat} {ds : List (Nat × Str)},
    ReportAll n p.2 ds → n + ds.length = p.1.localCSeq + 1 → tellAll l br p cs = .done p' →
    ReportAll n p'.2 (ds ++ cs.filter (fun c => decide (Tellable c.2)))
  | [], p, p', n, ds, hr, hn, h => by cases h; simpa using hr
  | (c, r) :: cs, p, p', n, ds, hr, hn, h => by
    simp only [tellAll, Run.bind_eq_done] at h
    obtain ⟨q, h1, h2⟩ := h
    by_cases ht : Tellable r
    · obtain ⟨x, e1, e2, e3, _⟩ := tell_some ht h1
      have hr' : ReportAll n q.2 (ds ++ [(c, r)]) := by
        rw [e1]
        rw [← hn] at e2
        exact reportAll_snoc hr e2
      have := tellAll_reports cs hr' (by rw [e3]; simp; omega) h2
      rw [List.filter_cons, if_pos (by simpa using ht)]
      simpa using this
    · rw [tell_none ht] at h1
      cases h1
      rw [List.filter_cons, if_neg (by simpa using ht)]
      exact tellAll_reports cs hr hn h2

/-! ## The story of the call -/

theorem later_iff (s : Fsm.CI) (hs : s.state = .completed) (es : List Ev) (cs : List (Nat × Str)) :
    Later es cs ↔ (reports (some s) es).2 = cs := by
  induction es generalizing s cs with
  | nil =>
    constructor
    · intro h; cases h; rfl
    · intro h
      have : cs = [] := h.symm
      subst this
      exact .nil
  | cons e es ih =>
    cases e with
    | response r p =>
      by_cases h1 : r.code < 200
      · have e : (Ev.response r p).run s = (some s, []) := by
          unfold Ev.run
          simp only [Ev.input, if_pos h1, Fsm.CI.step, hs]
          rfl
        simp only [reports, e, List.nil_append]
        rw [← ih s hs]
        constructor
        · intro h
          cases h <;> first | assumption | omega
        · intro h; exact .provisional h1 h
      · by_cases h2 : r.code < 300
        · have h3 : r.is2xx = true := by unfold Fsm.Resp.is2xx; simp; omega
          have e : (Ev.response r p).run s = (none, [(r.code, p)]) := by
            unfold Ev.run
            simp only [Ev.input, if_neg h1, Fsm.CI.step, hs, Fsm.CI.handleFinal, h3, if_true, Fsm.CI.handleFinal2xx]
            rfl
          simp only [reports, e, List.append_nil]
          constructor
          · intro h
            cases h <;> first | rfl | omega
          · rintro rfl; exact .success (by omega) h2
        · have h3 : r.is2xx = false := by unfold Fsm.Resp.is2xx; simp; omega
          have e : (Ev.response r p).run s = (some { s with state := .completed }, [(r.code, p)]) := by
            unfold Ev.run
            simp only [Ev.input, if_neg h1, Fsm.CI.step, hs, Fsm.CI.handleFinal, h3, Fsm.CI.handleFinalNon2xx]
            rfl
          simp only [reports, e]
          constructor
          · intro h
            cases h with
            | again _ h => rw [(ih _ rfl _).1 h]; rfl
            | success => omega
            | provisional => omega
          · rintro rfl
            exact .again (by omega) ((ih _ rfl _).2 rfl)
    | timer t =>
      by_cases h1 : t = .D
      · subst h1
        have e : (Ev.timer .D).run s = (none, []) := by
          unfold Ev.run
          simp only [Ev.input, Fsm.CI.step, hs, Fsm.CI.handleTimerD]
          rfl
        simp only [reports, e, List.append_nil]
        constructor
        · intro h
          cases h with
          | over => rfl
          | timer h => exact absurd rfl h
        · rintro rfl; exact .over
      · have e : (Ev.timer t).run s = (some s, []) := by
          unfold Ev.run
          simp only [Ev.input, Fsm.CI.step, hs]
          cases t <;> first | exact absurd rfl h1 | (simp [hs, Ev.input])
        simp only [reports, e, List.nil_append]
        rw [← ih s hs]
        constructor
        · intro h
          cases h with
          | over => exact absurd rfl h1
          | timer _ h => exact h
        · intro h; exact .timer h1 h
    | transportError =>
      have e : Ev.transportError.run s = (none, [(503, "Transport Error".toList), (503, "transport error".toList)]) := by
        unfold Ev.run
        simp only [Ev.input, Fsm.CI.step, hs, Fsm.CI.handleTransportError]
        rfl
      simp only [reports, e, List.append_nil]
      constructor
      · intro h; cases h; rfl
      · rintro rfl; exact .lost
    | evicted =>
      have e : Ev.evicted.run s = (none, [(503, "resource limit exceeded".toList)]) := rfl
      simp only [reports, e, List.append_nil]
      constructor
      · intro h; cases h; rfl
      · rintro rfl; exact .evicted

theorem story_iff (s : Fsm.CI) (hs : s.state = .calling ∨ s.state = .proceeding) (es : List Ev) (cs : List (Nat × Str)) :
    Story es cs ↔ (reports (some s) es).2 = cs := by
  induction es generalizing s cs with
  | nil =>
    constructor
    · intro h; cases h; rfl
    · intro h
      have : cs = [] := h.symm
      subst this
      exact .nil
  | cons e es ih =>
    cases e with
    | response r p =>
      by_cases h1 : r.code < 200
      · have e : (Ev.response r p).run s = (some { s with state := .proceeding }, [(r.code, p)]) := by
          unfold Ev.run
          rcases hs with hs | hs <;>
          · simp only [Ev.input, if_pos h1, Fsm.CI.step, hs, Fsm.CI.handleProvisional]
            cases r.requiresPrack <;> rfl
        simp only [reports, e]
        constructor
        · intro h
          cases h with
          | provisional _ h => rw [(ih _ (.inr rfl) _).1 h]; rfl
          | success => omega
          | failure => omega
        · rintro rfl
          exact .provisional h1 ((ih _ (.inr rfl) _).2 rfl)
      · by_cases h2 : r.code < 300
        · have h3 : r.is2xx = true := by unfold Fsm.Resp.is2xx; simp; omega
          have e : (Ev.response r p).run s = (none, [(r.code, p)]) := by
            unfold Ev.run
            rcases hs with hs | hs <;>
            · simp only [Ev.input, if_neg h1, Fsm.CI.step, hs, Fsm.CI.handleFinal, h3, if_true, Fsm.CI.handleFinal2xx]
              rfl
          simp only [reports, e, List.append_nil]
          constructor
          · intro h
            cases h <;> first | rfl | omega
          · rintro rfl; exact .success (by omega) h2
        · have h3 : r.is2xx = false := by unfold Fsm.Resp.is2xx; simp; omega
          have e : (Ev.response r p).run s = (some { s with state := .completed }, [(r.code, p)]) := by
            unfold Ev.run
            rcases hs with hs | hs <;>
            · simp only [Ev.input, if_neg h1, Fsm.CI.step, hs, Fsm.CI.handleFinal, h3, Fsm.CI.handleFinalNon2xx]
              rfl
          simp only [reports, e]
          constructor
          · intro h
            cases h with
            | failure _ h => rw [(later_iff _ rfl _ _).1 h]; rfl
            | success => omega
            | provisional => omega
          · rintro rfl
            exact .failure (by omega) ((later_iff _ rfl _ _).2 rfl)
    | timer t =>
      by_cases h1 : t = .B
      · subst h1
        have e : (Ev.timer .B).run s = (none, [(503, "Timer B expired".toList)]) := by
          unfold Ev.run
          rcases hs with hs | hs <;>
          · simp only [Ev.input, Fsm.CI.step, hs, Fsm.CI.handleTimerB]
            rfl
        simp only [reports, e, List.append_nil]
        constructor
        · intro h
          cases h with
          | timeout => rfl
          | timer h => exact absurd rfl h
        · rintro rfl; exact .timeout
      · have e : ∃ s', (Ev.timer t).run s = (some s', []) ∧ (s'.state = .calling ∨ s'.state = .proceeding) := by
          unfold Ev.run
          rcases hs with hs | hs
          · by_cases hA : t = .A
            · subst hA
              simp only [Ev.input, Fsm.CI.step, hs, Fsm.CI.handleTimerA]
              split
              · rename_i hc; exact absurd rfl hc
              · split
                · exact ⟨s, by simp [hs], .inl hs⟩
                · split
                  · exact ⟨⟨.calling, s.timers, min (s.aInterval * 2) (s.timers.duration .T2), s.lastInvite⟩, by simp [hs, reported], .inl rfl⟩
                  · exact ⟨⟨.calling, s.timers, min (s.aInterval * 2) (s.timers.duration .T2), s.lastInvite⟩, by simp [hs, reported], .inl rfl⟩
            · cases t <;> first
                | exact absurd rfl h1
                | exact absurd rfl hA
                | exact ⟨s, by simp only [Ev.input, Fsm.CI.step, hs]; simp [hs], .inl hs⟩
          · cases t <;> first
              | exact absurd rfl h1
              | exact ⟨s, by simp only [Ev.input, Fsm.CI.step, hs]; simp [hs], .inr hs⟩
        obtain ⟨s', e, hs'⟩ := e
        simp only [reports, e, List.nil_append]
        rw [← ih s' hs']
        constructor
        · intro h
          cases h with
          | timeout => exact absurd rfl h1
          | timer _ h => exact h
        · intro h; exact .timer h1 h
    | transportError =>
      have e : Ev.transportError.run s = (none, [(503, "Transport Error".toList), (503, "transport error".toList)]) := by
        unfold Ev.run
        rcases hs with hs | hs <;>
        · simp only [Ev.input, Fsm.CI.step, hs, Fsm.CI.handleTransportError]
          rfl
      simp only [reports, e, List.append_nil]
      constructor
      · intro h; cases h; rfl
      · rintro rfl; exact .lost
    | evicted =>
      have e : Ev.evicted.run s = (none, [(503, "resource limit exceeded".toList)]) := rfl
      simp only [reports, e, List.append_nil]
      constructor
      · intro h; cases h; rfl
      · rintro rfl; exact .evicted

/-- C105: what is reported of a call is the story of what happens to its INVITE. -/
theorem C105_story (tm : Fsm.Timers) (q : Fsm.Req) (es : List Ev) (cs : List (Nat × Str)) :
    (reports (some (sent tm q)) es).2 = cs ↔ Story es cs := by
  exact (story_iff (sent tm q) (.inl rfl) es cs).symm

/-! ## C105: the answer and the NOTIFYs -/

/-- C105: a REFER is accepted only if it has a Refer-To, has the method REFER and belongs to a dialog the daemon holds; the
answer is the 202 for it. -/
theorem C105_accepted (cfg : RCfg) (ops : List Dlg.MOp) (m m' : SubMgr) (rq : Request) (rnd : Rand) (r : Response) (after : After)
    (h : handleRefer cfg (.run ops) m rq rnd = .done (.accepted r after, m')) :
    rq.method.asStr = "REFER".toList ∧ (∃ v, First rq.headers "Refer-To" v) ∧
    (∃ d, Names rq.headers d.id.callId d.id.remoteTag d.id.localTag ∧ (Dlg.Mgr.run ops).get d.id = some d) ∧
    r.code = 202 ∧ Uas.Spec.Belongs rq.headers r.headers ∧ Uas.Spec.Copied rq.headers r.headers "CSeq" := by
  obtain ⟨v, d, hv, hd, hm, _, hb, _⟩ := refer_accepted h
  obtain ⟨h1, h2, h3⟩ := Uas.C85_belongs _ _ _ _ _ hb
  exact ⟨hm, ⟨v, hv⟩, ⟨d, Dlg.C19_found _ _ _ hd⟩, h1, h2, h3 (by simp)⟩

/-- C105: every other REFER is refused and leaves no subscription: with 400 if it has no Refer-To, and otherwise with 481 if it
belongs to no dialog. -/
theorem C105_refused (cfg : RCfg) (ds : Dlg.Mgr) (m m' : SubMgr) (rq : Request) (rnd : Rand) (code : Nat)
    (h : handleRefer cfg ds m rq rnd = .done (.refused code, m')) :
    m' = m ∧ (code = 400 ∧ Absent rq.headers "Refer-To" ∨
      code = 481 ∧ (∃ v, First rq.headers "Refer-To" v) ∧
        (∀ i d, ds.get i = some d → ¬ Names rq.headers i.callId i.remoteTag i.localTag) ∨
      code = 603 ∧ ∃ v, First rq.headers "Refer-To" v) := by
  unfold handleRefer at h
  split at h
  · rename_i hn
    cases h
    exact ⟨rfl, .inl ⟨rfl, (Dlg.absent_iff _ _).2 hn⟩⟩
  · rename_i v hv
    have hv := (Dlg.first_iff _ _ _).2 hv
    split at h
    · cases h
    · rename_i hn
      cases h
      exact ⟨rfl, .inr (.inl ⟨rfl, ⟨v, hv⟩, Dlg.C19_not_found _ _ hn⟩)⟩
    · split at h
      · cases h
        exact ⟨rfl, .inr (.inr ⟨rfl, v, hv⟩)⟩
      · split at h
        · cases h
        · cases h
          exact ⟨rfl, .inr (.inr ⟨rfl, v, hv⟩)⟩
        · simp only [Run.bind_eq_done] at h
          obtain ⟨o, _, h⟩ := h
          split at h
          · cases h
            exact ⟨rfl, .inr (.inr ⟨rfl, v, hv⟩)⟩
          · split at h
            · cases h
            · simp only [Run.bind_eq_done] at h
              obtain ⟨_, _, _, _, h⟩ := h
              cases h

/-- C105: an accepted REFER makes a subscription named by the REFER and its 202, held by the daemon if there is room; its first
NOTIFY says 100 Trying and has the number after that of the REFER.  Every NOTIFY goes to the Contact of the REFER. -/
theorem C105_subscription (cfg : RCfg) (ds : Dlg.Mgr) (m m' : SubMgr) (rq : Request) (rnd : Rand) (r : Response) (after : After) (t : Told)
    (h : handleRefer cfg ds m rq rnd = .done (.accepted r after, m')) (ht : after.told = some t) :
    ReferNamed rq.headers r.headers t.1.id ∧
    (m.length < 10000 → ∃ s, m'.get t.1.id = some s ∧ s.state = .active ∧ NumberOf rq.headers s.localCSeq) ∧
    (∃ n q qs, NumberOf rq.headers n ∧ t.2 = q :: qs ∧ Reports q (n + 1) 100 "Trying".toList) ∧
    ∃ u, GoesTo rq.headers u ∧ ∀ q ∈ t.2, q.uri = u.raw := by
  obtain ⟨s, hs, ⟨⟨n, e⟩, hq⟩, hm⟩ := made_refer h ht
  obtain ⟨h1, h2, h3, h4, h5, h6, f, hf, hr⟩ := sub_some hs
  refine ⟨by rw [e]; exact h1, ?_, ?_, s.contact, h2, ?_⟩
  · intro hl
    refine ⟨s, ?_, h4, h3⟩
    rw [e, hm]
    exact insert_room m s hl
  · obtain ⟨v, d, hv, _, _, _, _, h⟩ := refer_accepted h
    rcases h with ⟨hn, _⟩ | ⟨s', t', hs', _, hb, hc⟩
    · rw [hs] at hn; cases hn
    · rw [hs] at hs'
      cases hs'
      obtain ⟨q, e1, r1, _⟩ := tell_some (tellable_of "Trying" (by decide +kernel)) hb
      have tail : ∃ qs, t.2 = t'.2 ++ qs := by
        cases after with
        | nothing => cases ht
        | failed q =>
          cases ht
          have app : ∀ code reason, tell cfg.localUri rnd.notify t' code reason = .done t → ∃ qs, t.2 = t'.2 ++ qs := by
            intro code reason h
            by_cases hT : Tellable reason
            · obtain ⟨x, e, _⟩ := tell_some hT h
              exact ⟨[x], e⟩
            · rw [tell_none hT] at h
              cases h
              exact ⟨[], by simp⟩
          rcases transfer_failed hc with ⟨_, h⟩ | ⟨_, _, _, _, _, _, _, _, _, h⟩ | ⟨_, _, _, _, _, _, _, _, _, h⟩
          · exact app _ _ h
          · exact app _ _ h
          · exact app _ _ h
        | calling q inv a p tr =>
          cases ht
          obtain ⟨_, _, _, _, _, _, _, _, _, e, _⟩ := transfer_calling hc
          exact ⟨[], by rw [e]; simp⟩
      obtain ⟨qs, e2⟩ := tail
      exact ⟨_, q, qs, h3, by rw [e2, e1]; rfl, r1⟩
  · intro q hm
    obtain ⟨_, _, _, _, _, _, hc⟩ := hq q hm
    obtain ⟨_, hu, _⟩ := C104_sipfrag _ _ _ _ _ _ _ _ hc
    exact hu

/-- the NOTIFYs when a call was made -/
theorem called_told {cfg : RCfg} {ds : Dlg.Mgr} {m m' : SubMgr} {rq : Request} {rnd : Rand} {r : Response} {t : Told} {inv : Request}
    {a : Addr} {p : Nat} {tr : String} (h : handleRefer cfg ds m rq rnd = .done (.accepted r (.calling t inv a p tr), m')) :
    ∃ n, NumberOf rq.headers n ∧ ReportAll (n + 1) t.2 [(100, "Trying".toList)] ∧ t.1.localCSeq = n + 1 := by
  obtain ⟨v, d, hv, _, _, _, _, h⟩ := refer_accepted h
  rcases h with ⟨_, h, _⟩ | ⟨s, t', hs, _, hb, hc⟩
  · cases h
  · obtain ⟨q, e1, r1, e3, _⟩ := tell_some (tellable_of "Trying" (by decide +kernel)) hb
    obtain ⟨_, _, _, _, _, _, _, _, _, e, _⟩ := transfer_calling hc
    obtain ⟨_, _, hn, _⟩ := sub_some hs
    refine ⟨_, hn, ?_, by rw [e, e3]⟩
    rw [e, e1]
    exact .cons r1 .nil

/-- **C105 (partial).** The NOTIFYs of a transferred call tell 100 Trying and then, one by one and with consecutive numbers from
the one after the REFER's, the story of the call.  Missing: an outcome whose reason phrase is longer than 128 bytes or has a control
character is not told (`C105_long_reason`). -/
theorem C105_progress_partial (cfg : RCfg) (ds : Dlg.Mgr) (m m' : SubMgr) (rq : Request) (rnd : Rand) (r : Response) (t t' : Told) (inv : Request)
    (a : Addr) (p : Nat) (tr : String) (h : handleRefer cfg ds m rq rnd = .done (.accepted r (.calling t inv a p tr), m'))
    (tm : Fsm.Timers) (q : Fsm.Req) (es : List Ev) (hp : progress cfg.localUri rnd.notify t (sent tm q) es = .done t') :
    ∃ n cs, NumberOf rq.headers n ∧ Story es cs ∧
      ReportAll (n + 1) t'.2 ((100, "Trying".toList) :: cs.filter (fun c => decide (Tellable c.2))) := by
  obtain ⟨n, h1, h2, h3⟩ := called_told h
  refine ⟨n, _, h1, (C105_story tm q es _).1 rfl, ?_⟩
  exact tellAll_reports _ h2 (by rw [h3]; rfl) hp

/-- **C105 (partial).** Every NOTIFY names the subscription of the REFER.  Missing: tags and URIs of which a part reads as a tag
(`C104_named_partial`). -/
theorem C105_named_partial (cfg : RCfg) (ds : Dlg.Mgr) (m m' : SubMgr) (rq : Request) (rnd : Rand) (r : Response) (t t' : Told) (after : After)
    (h : handleRefer cfg ds m rq rnd = .done (.accepted r after, m')) (ht : after.told = some t)
    (tm : Fsm.Timers) (q : Fsm.Req) (es : List Ev) (hp : progress cfg.localUri rnd.notify t (sent tm q) es = .done t')
    (hf : TagText t.1.id.fromTag) (htt : TagText t.1.id.toTag) (hl : NoTag (Bracketed cfg.localUri))
    (hr : ∀ f u, First rq.headers "From" f → Target f u → NoTag (Bracketed u)) :
    ∀ q ∈ t'.2, Notifies q t.1.id := by
  obtain ⟨s, hs, hm, _⟩ := made_refer h ht
  obtain ⟨_, _, _, _, _, _, f, hF, hR⟩ := sub_some hs
  obtain ⟨_, hq⟩ := made_tellAll _ hm hp
  obtain ⟨⟨n, e⟩, _⟩ := hm
  rw [e] at hf htt ⊢
  intro q hmem
  obtain ⟨k, c, b, code, reason, e', hc⟩ := hq q hmem
  exact C104_named_partial { s with localCSeq := k } q cfg.localUri (.inr ⟨c, b, code, reason, e', hc⟩) ⟨hf, htt⟩ hl (hr _ _ hF hR)

/-! ## C105: one end -/

theorem later_quiet {es : List Ev} {cs : List (Nat × Str)} (h : Later es cs)
    (hq : ∀ e ∈ es, ¬ IsFinal e ∧ e ≠ .transportError ∧ e ≠ .evicted) : cs = [] := by
  induction h with
  | nil => rfl
  | again h _ _ => exact absurd (Nat.le_trans (by decide : 200 ≤ 300) h) (hq _ List.mem_cons_self).1
  | success h _ => exact absurd h (hq _ List.mem_cons_self).1
  | provisional _ _ ih => exact ih (fun e he => hq e (by simp [he]))
  | over => rfl
  | timer _ _ ih => exact ih (fun e he => hq e (by simp [he]))
  | lost => exact absurd rfl (hq .transportError (by simp)).2.1
  | evicted => exact absurd rfl (hq .evicted (by simp)).2.2

/-- **C105 (partial).** If the connection stays up and after the first final response there is no other and the transaction is not
evicted, only the last outcome told is final: the subscription ends once, and last.  Missing: the three cases excluded
(`C105_repeated`, `C105_lost_twice`). -/
theorem C105_ends_once_partial (es : List Ev) (cs : List (Nat × Str)) (h : Story es cs) (hl : Ev.transportError ∉ es)
    (hf : ∀ a e b, es = a ++ e :: b → IsFinal e → ∀ f ∈ b, ¬ IsFinal f ∧ f ≠ .evicted) : EndsOnce cs := by
  have single : ∀ c : Nat × Str, EndsOnce [c] := by
    intro c a d b h _
    cases a with
    | nil => simp only [List.nil_append, List.cons.injEq] at h; exact h.2.symm
    | cons x a => simp at h
  induction h with
  | nil => intro a c b h; simp at h
  | @provisional r p es cs h1 _ ih =>
    have ih := ih (fun hm => hl (by simp [hm])) (fun a e b h => hf (_ :: a) e b (by rw [h]; rfl))
    intro a c b h hc
    cases a with
    | nil =>
      simp only [List.nil_append, List.cons.injEq] at h
      rw [← h.1] at hc
      simp only at hc
      omega
    | cons x a =>
      simp only [List.cons_append, List.cons.injEq] at h
      exact ih a c b h.2 hc
  | success => exact single _
  | @failure r p es cs h1 h2 =>
    have hq := hf [] (.response r p) es rfl (Nat.le_trans (by decide : 200 ≤ 300) h1)
    rw [later_quiet h2 (fun e he => ⟨(hq e he).1, fun hh => hl (by simp [← hh, he]), (hq e he).2⟩)]
    exact single _
  | timeout => exact single _
  | timer _ _ ih => exact ih (fun hm => hl (by simp [hm])) (fun a e b h => hf (_ :: a) e b (by rw [h]; rfl))
  | lost => exact absurd (by simp) hl
  | evicted => exact single _

/-- C105: the end of a call is always told: after a final response, the timeout, the loss of the connection or an eviction there
is a final outcome. -/
theorem C105_ends (es : List Ev) (cs : List (Nat × Str)) (h : Story es cs)
    (he : ∃ e ∈ es, IsFinal e ∨ e = .timer .B ∨ e = .transportError ∨ e = .evicted) : ∃ c ∈ cs, 200 ≤ c.1 := by
  induction h with
  | nil => obtain ⟨e, h, _⟩ := he; simp at h
  | @provisional r p es cs h1 _ ih =>
    obtain ⟨e, hm, he⟩ := he
    rcases List.mem_cons.1 hm with rfl | hm
    · rcases he with he | he | he | he
      · exact absurd he (by simp [IsFinal]; omega)
      · cases he
      · cases he
      · cases he
    · obtain ⟨c, h2, h3⟩ := ih ⟨e, hm, he⟩
      exact ⟨c, by simp [h2], h3⟩
  | @success r p es h1 h2 => exact ⟨_, List.mem_cons_self, h1⟩
  | @failure r p es cs h1 h2 => exact ⟨(r.code, p), by simp, Nat.le_trans (by decide : 200 ≤ 300) h1⟩
  | timeout => exact ⟨(503, _), List.mem_cons_self, (by decide : 200 ≤ 503)⟩
  | timer ht _ ih =>
    obtain ⟨e, hm, he⟩ := he
    rcases List.mem_cons.1 hm with rfl | hm
    · rcases he with he | he | he | he
      · cases he
      · cases he; exact absurd rfl ht
      · cases he
      · cases he
    · exact ih ⟨e, hm, he⟩
  | lost => exact ⟨(503, _), List.mem_cons_self, (by decide : 200 ≤ 503)⟩
  | evicted => exact ⟨(503, _), List.mem_cons_self, (by decide : 200 ≤ 503)⟩

/-! ## C105: what fails -/

/-- C105, the code against RFC 6665: a failure that is retransmitted is told again, so a NOTIFY with `terminated` follows a NOTIFY
with `terminated`. -/
theorem C105_repeated (l : SipUri) (br : Nat → Str) (t t' : Told) (tm : Fsm.Timers) (q : Fsm.Req) (f : Fsm.Resp) (reason : Str)
    (hf : 300 ≤ f.code) (hr : Tellable reason)
    (h : progress l br t (sent tm q) [.response f reason, .response f reason] = .done t') :
    ∃ a b n, t'.2 = t.2 ++ [a, b] ∧ Reports a n f.code reason ∧ Reports b (n + 1) f.code reason := by
  have e : (reports (some (sent tm q)) [.response f reason, .response f reason]).2 = [(f.code, reason), (f.code, reason)] :=
    (C105_story tm q _ _).2 (.failure hf (.again hf .nil))
  unfold progress at h
  rw [e] at h
  simp only [tellAll, Run.bind_eq_done] at h
  obtain ⟨t1, h1, t2, h2, h3⟩ := h
  cases h3
  obtain ⟨a, e1, r1, s1, _⟩ := tell_some hr h1
  obtain ⟨b, e2, r2, s2, _⟩ := tell_some hr h2
  refine ⟨a, b, _, by rw [e2, e1]; simp, r1, ?_⟩
  rw [s1] at r2
  exact r2

/-- C105, the code against RFC 6665: the loss of the connection is told twice. -/
theorem C105_lost_twice (l : SipUri) (br : Nat → Str) (t t' : Told) (tm : Fsm.Timers) (q : Fsm.Req)
    (h : progress l br t (sent tm q) [.transportError] = .done t') :
    ∃ a b n, t'.2 = t.2 ++ [a, b] ∧ Reports a n 503 "Transport Error".toList ∧ Reports b (n + 1) 503 "transport error".toList := by
  have e : (reports (some (sent tm q)) [.transportError]).2 = [(503, "Transport Error".toList), (503, "transport error".toList)] :=
    (C105_story tm q _ _).2 .lost
  unfold progress at h
  rw [e] at h
  simp only [tellAll, Run.bind_eq_done] at h
  obtain ⟨t1, h1, t2, h2, h3⟩ := h
  cases h3
  obtain ⟨a, e1, r1, s1, _⟩ := tell_some (tellable_of "Transport Error" (by decide +kernel)) h1
  obtain ⟨b, e2, r2, s2, _⟩ := tell_some (tellable_of "transport error" (by decide +kernel)) h2
  refine ⟨a, b, _, by rw [e2, e1]; simp, r1, ?_⟩
  rw [s1] at r2
  exact r2

/-- C105, the code against RFC 3515: a final response with a reason phrase of more than 128 bytes, which the parser accepts up to
256 bytes, is never told, and the subscription never ends. -/
theorem C105_long_reason (l : SipUri) (br : Nat → Str) (t : Told) (tm : Fsm.Timers) (q : Fsm.Req) (f : Fsm.Resp) (reason : Str)
    (hf : 200 ≤ f.code) (hf' : f.code < 300) (hr : 128 < (utf8 reason).length) :
    progress l br t (sent tm q) [.response f reason] = .done t := by
  have e : (reports (some (sent tm q)) [.response f reason]).2 = [(f.code, reason)] := (C105_story tm q _ _).2 (.success hf hf')
  unfold progress
  rw [e]
  simp only [tellAll]
  rw [tell_none (fun h => absurd h.1 (by omega))]
  rfl

/-- C105, the code against RFC 3261: the NOTIFYs are numbered after the REFER, in the peer's space of numbers.  A peer that has
already seen a request of the daemon with that number or a higher one in the dialog refuses the first NOTIFY. -/
theorem C105_number_refused (cfg : RCfg) (ds : Dlg.Mgr) (m m' : SubMgr) (rq : Request) (rnd : Rand) (r : Response) (after : After) (t : Told)
    (h : handleRefer cfg ds m rq rnd = .done (.accepted r after, m')) (ht : after.told = some t) (n : Nat)
    (hn : CSeqOf rq.headers n) (e : Dlg.Dialog) (he : n + 1 ≤ e.remoteCSeq) :
    ∃ q qs, t.2 = q :: qs ∧ ∀ e', e.updateFromRequest q ≠ (.ok (), e') := by
  obtain ⟨_, _, ⟨k, q, qs, hk, e1, hq⟩, _⟩ := C105_subscription _ _ _ _ _ _ _ _ _ h ht
  obtain rfl := number_unique (.inl hn) hk
  refine ⟨q, qs, e1, ?_⟩
  intro e' hu
  obtain ⟨j, hj, _, _, hgt⟩ := (Dlg.C14_accepted_iff e q (by rw [hq.method]; decide)).1 ⟨e', hu⟩
  obtain rfl := Dlg.cseqOf_unique hj hq.number
  have := (hgt (by omega)).1
  omega

/-! ## Examples -/

/-- timers, an INVITE and responses -/
def tmEx : Fsm.Timers := ⟨.udp, 500, 4000, 5000⟩

def answerEx (code : Nat) (reason : String) : Ev := .response ⟨code, false, []⟩ reason.toList

/-- the numbers and bodies of the NOTIFYs for a transfer -/
def toldEx (es : List Ev) : Option (List (Option Nat × Bytes)) :=
  match handleRefer (cfgEx false) (.run dialogsEx) [] (referEx "<sip:carol@8.8.4.4>") rndEx with
  | .done (.accepted _ (.calling t _ _ _ _), _) =>
    match progress (cfgEx false).localUri rndEx.notify t (sent tmEx ⟨[]⟩) es with
    | .done t' => some (t'.2.map (fun q => (Dlg.cseqNumber q.headers, q.body)))
    | .panic => none
  | _ => none

example : toldEx [answerEx 180 "Ringing", .timer .A, answerEx 200 "OK", answerEx 200 "OK"] =
    some [(some 8, utf8 (sipfrag 100 "Trying".toList)), (some 9, utf8 (sipfrag 180 "Ringing".toList)), (some 10, utf8 (sipfrag 200 "OK".toList))] := by
  decide +kernel
example : toldEx [answerEx 486 "Busy Here", answerEx 486 "Busy Here"] =
    some [(some 8, utf8 (sipfrag 100 "Trying".toList)), (some 9, utf8 (sipfrag 486 "Busy Here".toList)),
      (some 10, utf8 (sipfrag 486 "Busy Here".toList))] := by
  decide +kernel
example : toldEx [.timer .B] =
    some [(some 8, utf8 (sipfrag 100 "Trying".toList)), (some 9, utf8 (sipfrag 503 "Timer B expired".toList))] := by
  decide +kernel
example : Story [answerEx 180 "Ringing", .timer .A, answerEx 200 "OK"] [(180, "Ringing".toList), (200, "OK".toList)] :=
  .provisional (by decide) (.timer (by decide) (.success (by decide) (by decide)))
example : EndsOnce [(180, "Ringing".toList), (200, "OK".toList)] :=
  C105_ends_once_partial [answerEx 180 "Ringing", .timer .A, answerEx 200 "OK"] _
    (.provisional (by decide) (.timer (by decide) (.success (by decide) (by decide)))) (by decide) (by
      intro a e b h hf f hm
      match a, h with
      | [], h => cases h; exact absurd hf (by simp [IsFinal, answerEx])
      | [_], h => cases h; cases hf
      | [_, _], h => cases h; simp at hm
      | _ :: _ :: _ :: a, h => simp at h)
/-- The REFERs that are refused. -/
example : (match handleRefer (cfgEx false) (.run dialogsEx) [] ⟨.refer, [], headersOf [], []⟩ rndEx with
  | .done (.refused c, _) => c | _ => 0) = 400 := by decide +kernel
example : (match handleRefer (cfgEx false) (.run []) [] (referEx "<sip:carol@8.8.4.4>") rndEx with
  | .done (.refused c, _) => c | _ => 0) = 481 := by decide +kernel
/-- The names of the subscription can be read as tags. -/
example : TagText "fa".toList ∧ NoTag (Bracketed bobUri) := by
  refine ⟨⟨by decide, ?_⟩, Dlg.extractTag_none (by decide +kernel)⟩
  intro a c h
  match a, h with
  | [_], h => cases h; decide
  | [], h => cases h
  | _ :: _ :: a, h => simp at h

end Siphon.Sub
