import Verif.Manager.LemmasFailover
/-! Proof internals: what the user of a client transaction is told, as a function of the machine. -/

namespace Siphon.Manager
open Siphon.Fsm
set_option linter.unusedSimpArgs false

def ciFinals : List CIAction → List Resp
  | [] => []
  | .deliver r :: as => if r.code < 200 then ciFinals as else r :: ciFinals as
  | _ :: as => ciFinals as

def ciAcks : List CIAction → List (Resp × Bool)
  | [] => []
  | .generateAck r two :: as => (r, two) :: ciAcks as
  | _ :: as => ciAcks as

def cnFinals : List CNAction → List Resp
  | [] => []
  | .deliver r :: as => if r.code < 200 then cnFinals as else r :: cnFinals as
  | _ :: as => cnFinals as

def CActs.finals : CActs → List Resp
  | .invite as => ciFinals as
  | .nonInvite as => cnFinals as

def CActs.acks : CActs → List (Resp × Bool)
  | .invite as => ciAcks as
  | .nonInvite _ => []

theorem finalsOf_map (k : Key) (b : Bytes) (as : List (Ctx × Bool)) :
    finalsOf k (as.map (fun a => .attempt k a.1 b a.2)) = [] := by
  induction as with
  | nil => rfl
  | cons a as ih => simp [finalsOf, ih]

theorem acksOf_map (k : Key) (b : Bytes) (as : List (Ctx × Bool)) :
    acksOf k (as.map (fun a => .attempt k a.1 b a.2)) = [] := by
  induction as with
  | nil => rfl
  | cons a as ih => simp [acksOf, ih]

theorem dispatch_quiet (net : Nat → Bool) (k : Key) (b : Bytes) (m : Mgr) :
    finalsOf k (m.dispatchWithFailover net k b).2 = [] ∧
    acksOf k (m.dispatchWithFailover net k b).2 = [] := by
  unfold Mgr.dispatchWithFailover
  split
  · exact ⟨rfl, rfl⟩
  · exact ⟨finalsOf_map k b _, acksOf_map k b _⟩

/-- one INVITE action on a present entry -/
theorem ci1_obs (net : Nat → Bool) (k : Key) (a : CIAction) (m : Mgr) (e : CEntry)
    (h : m.client.get k = some e) :
    finalsOf k (m.applyCI1 net k a).2 = ciFinals [a] ∧ acksOf k (m.applyCI1 net k a).2 = ciAcks [a] := by
  cases a with
  | transmit b => exact dispatch_quiet net k b m
  | deliver r =>
    simp only [Mgr.applyCI1, Mgr.deliver, h, ciFinals, ciAcks]
    split <;> simp [finalsOf, acksOf]
  | expectPrack r => simp [Mgr.applyCI1, h, ciFinals, ciAcks, finalsOf, acksOf]
  | generateAck r two => simp [Mgr.applyCI1, h, ciFinals, ciAcks, finalsOf, acksOf]
  | schedule t d => simp [Mgr.applyCI1, ciFinals, ciAcks, finalsOf, acksOf]
  | cancel t => simp [Mgr.applyCI1, ciFinals, ciAcks, finalsOf, acksOf]
  | terminate w => simp [Mgr.applyCI1, h, ciFinals, ciAcks, finalsOf, acksOf]

theorem cn1_obs (net : Nat → Bool) (k : Key) (a : CNAction) (m : Mgr) (e : CEntry)
    (h : m.client.get k = some e) :
    finalsOf k (m.applyCN1 net k a).2 = cnFinals [a] ∧ acksOf k (m.applyCN1 net k a).2 = [] := by
  cases a with
  | transmit b => exact dispatch_quiet net k b m
  | deliver r =>
    simp only [Mgr.applyCN1, Mgr.deliver, h, cnFinals]
    split <;> simp [finalsOf, acksOf]
  | schedule t d => simp [Mgr.applyCN1, cnFinals, finalsOf, acksOf]
  | cancel t => simp [Mgr.applyCN1, cnFinals, finalsOf, acksOf]
  | terminate w => simp [Mgr.applyCN1, h, cnFinals, finalsOf, acksOf]

theorem ciFinals_cons (a : CIAction) (as : List CIAction) :
    ciFinals (a :: as) = ciFinals [a] ++ ciFinals as := by
  cases a <;> simp [ciFinals]; split <;> simp

theorem ciAcks_cons (a : CIAction) (as : List CIAction) : ciAcks (a :: as) = ciAcks [a] ++ ciAcks as := by
  cases a <;> simp [ciAcks]

theorem cnFinals_cons (a : CNAction) (as : List CNAction) :
    cnFinals (a :: as) = cnFinals [a] ++ cnFinals as := by
  cases a <;> simp [cnFinals]; split <;> simp

theorem ci_obs (net : Nat → Bool) (k : Key) (as : List CIAction) (m : Mgr) (e : CEntry)
    (h : m.client.get k = some e) (hnt : ∀ w, .terminate w ∉ as) :
    finalsOf k (m.applyCI net k as).2 = ciFinals as ∧ acksOf k (m.applyCI net k as).2 = ciAcks as := by
  induction as generalizing m e with
  | nil => exact ⟨rfl, rfl⟩
  | cons a as ih =>
    obtain ⟨e1, h1, _⟩ := applyCI_entry net k [a] m e h (fun w hw => hnt w (by simp_all))
    simp only [Mgr.applyCI, andThen] at h1 ⊢
    obtain ⟨i1, i2⟩ := ih _ e1 h1 (fun w hw => hnt w (by simp [hw]))
    obtain ⟨j1, j2⟩ := ci1_obs net k a m e h
    rw [finalsOf_append, acksOf_append, ciFinals_cons, ciAcks_cons, i1, i2, j1, j2]
    exact ⟨rfl, rfl⟩

theorem cn_obs (net : Nat → Bool) (k : Key) (as : List CNAction) (m : Mgr) (e : CEntry)
    (h : m.client.get k = some e) (hnt : ∀ w, .terminate w ∉ as) :
    finalsOf k (m.applyCN net k as).2 = cnFinals as ∧ acksOf k (m.applyCN net k as).2 = [] := by
  induction as generalizing m e with
  | nil => exact ⟨rfl, rfl⟩
  | cons a as ih =>
    obtain ⟨e1, h1, _⟩ := applyCN_entry net k [a] m e h (fun w hw => hnt w (by simp_all))
    simp only [Mgr.applyCN, andThen] at h1 ⊢
    obtain ⟨i1, i2⟩ := ih _ e1 h1 (fun w hw => hnt w (by simp [hw]))
    obtain ⟨j1, j2⟩ := cn1_obs net k a m e h
    rw [finalsOf_append, acksOf_append, cnFinals_cons, i1, i2, j1, j2]
    exact ⟨rfl, rfl⟩

/-- actions that tell the user nothing produce nothing, whatever the entry -/
theorem ci_obs_none (net : Nat → Bool) (k : Key) (as : List CIAction) (m : Mgr)
    (hf : ciFinals as = []) (ha : ciAcks as = []) :
    finalsOf k (m.applyCI net k as).2 = [] ∧ acksOf k (m.applyCI net k as).2 = [] := by
  induction as generalizing m with
  | nil => exact ⟨rfl, rfl⟩
  | cons a as ih =>
    rw [ciFinals_cons, List.append_eq_nil_iff] at hf
    rw [ciAcks_cons, List.append_eq_nil_iff] at ha
    simp only [Mgr.applyCI, andThen]
    obtain ⟨i1, i2⟩ := ih (m.applyCI1 net k a).1 hf.2 ha.2
    rw [finalsOf_append, acksOf_append, i1, i2]
    cases hg : m.client.get k with
    | none => rw [(applyCI1_none net k a m hg).2]; exact ⟨rfl, rfl⟩
    | some e =>
      obtain ⟨j1, j2⟩ := ci1_obs net k a m e hg
      rw [j1, j2, hf.1, ha.1]; exact ⟨rfl, rfl⟩

theorem cn_obs_none (net : Nat → Bool) (k : Key) (as : List CNAction) (m : Mgr)
    (hf : cnFinals as = []) :
    finalsOf k (m.applyCN net k as).2 = [] ∧ acksOf k (m.applyCN net k as).2 = [] := by
  induction as generalizing m with
  | nil => exact ⟨rfl, rfl⟩
  | cons a as ih =>
    rw [cnFinals_cons, List.append_eq_nil_iff] at hf
    simp only [Mgr.applyCN, andThen]
    obtain ⟨i1, i2⟩ := ih (m.applyCN1 net k a).1 hf.2
    rw [finalsOf_append, acksOf_append, i1, i2]
    cases hg : m.client.get k with
    | none => rw [(applyCN1_none net k a m hg).2]; exact ⟨rfl, rfl⟩
    | some e =>
      obtain ⟨j1, j2⟩ := cn1_obs net k a m e hg
      rw [j1, j2, hf.1]; exact ⟨rfl, rfl⟩

/-- applying the actions of one step to a present entry -/
theorem apply_kind (net : Nat → Bool) (k : Key) (as : CActs) (m : Mgr) (e : CEntry)
    (h : m.client.get k = some e) (hq : as.terminates → as.finals = [] ∧ as.acks = []) :
    finalsOf k (m.applyClient net k as).2 = as.finals ∧
    acksOf k (m.applyClient net k as).2 = as.acks ∧
    ((m.applyClient net k as).1.client.get k = none ∨
     ∃ e', (m.applyClient net k as).1.client.get k = some e' ∧ e'.kind = e.kind) := by
  cases as with
  | invite as =>
    by_cases ht : ∃ w, .terminate w ∈ as
    · obtain ⟨hf, ha⟩ := hq ht
      obtain ⟨w, hw⟩ := ht
      obtain ⟨i1, i2⟩ := ci_obs_none net k as m hf ha
      refine ⟨i1.trans hf.symm, i2.trans ha.symm, Or.inl ?_⟩
      exact reap_none k _ (applyCI_terminate net k as m w hw)
    · obtain ⟨i1, i2⟩ := ci_obs net k as m e h (by simpa using ht)
      obtain ⟨e1, h1, hk, _⟩ := applyCI_entry net k as m e h (by simpa using ht)
      refine ⟨i1, i2, ?_⟩
      simp only [Mgr.applyClient]
      rw [reap_some k _ e1 h1]
      split
      · exact Or.inl rfl
      · exact Or.inr ⟨e1, rfl, hk⟩
  | nonInvite as =>
    by_cases ht : ∃ w, .terminate w ∈ as
    · obtain ⟨hf, ha⟩ := hq ht
      obtain ⟨w, hw⟩ := ht
      obtain ⟨i1, i2⟩ := cn_obs_none net k as m hf
      refine ⟨i1.trans hf.symm, i2.trans ha.symm, Or.inl ?_⟩
      exact reap_none k _ (applyCN_terminate net k as m w hw)
    · obtain ⟨i1, i2⟩ := cn_obs net k as m e h (by simpa using ht)
      obtain ⟨e1, h1, hk, _⟩ := applyCN_entry net k as m e h (by simpa using ht)
      refine ⟨i1, i2, ?_⟩
      simp only [Mgr.applyClient]
      rw [reap_some k _ e1 h1]
      split
      · exact Or.inl rfl
      · exact Or.inr ⟨e1, rfl, hk⟩

theorem feed_terminates_quiet (kd : CKind) (ev : CEv) (h : (kd.feed ev).2.terminates) :
    (kd.feed ev).2.finals = [] ∧ (kd.feed ev).2.acks = [] := by
  cases kd with
  | invite s =>
    obtain ⟨st, tm, ai, li⟩ := s
    cases ev with
    | timer t =>
      cases st <;> cases t <;>
        simp_all [CKind.feed, CI.step, CActs.terminates, CActs.finals, CActs.acks, ciFinals, ciAcks,
          CI.handleTimerA, CI.handleTimerB, CI.handleTimerD]
      by_cases ha : tm.duration .A = 0
      · simp_all
      · cases li <;> simp_all
    | provisional r =>
      cases st <;>
        simp_all [CKind.feed, CI.step, CActs.terminates, CI.handleProvisional, CActs.finals, CActs.acks,
          ciFinals, ciAcks] <;> (split at h <;> simp_all)
    | final r =>
      by_cases h2 : r.is2xx = true <;> cases st <;>
        simp_all [CKind.feed, CI.step, CActs.terminates, CI.handleFinal, CI.handleFinal2xx,
          CI.handleFinalNon2xx, CActs.finals, CActs.acks, ciFinals, ciAcks]
    | transportError =>
      cases st <;> simp [CKind.feed, CI.step, CI.handleTransportError, CActs.finals, CActs.acks,
        ciFinals, ciAcks]
  | nonInvite s =>
    obtain ⟨st, tm, ai, li⟩ := s
    cases ev with
    | timer t =>
      cases st <;> cases t <;>
        simp_all [CKind.feed, CN.step, CActs.terminates, CActs.finals, CActs.acks, cnFinals,
          CN.handleTimerE, CN.handleTimerF, CN.handleTimerK] <;>
      (by_cases ha : tm.duration .E = 0
       · simp_all
       · cases li <;> simp_all)
    | provisional r =>
      cases st <;>
        simp_all [CKind.feed, CN.step, CActs.terminates, CN.handleProvisional, CActs.finals, CActs.acks,
          cnFinals]
    | final r =>
      cases st <;>
        simp_all [CKind.feed, CN.step, CActs.terminates, CN.handleFinal, CActs.finals, CActs.acks, cnFinals]
    | transportError =>
      cases st <;> simp [CKind.feed, CN.step, CN.handleTransportError, CActs.finals, CActs.acks, cnFinals]

/-- the manager only feeds responses as the event their status code calls for -/
def CEv.legit : CEv → Prop
  | .provisional r => r.code < 200
  | .final r => ¬ r.code < 200
  | _ => True

/-- the machine of a client transaction just started -/
def startKind (k : Key) (tm : Timers) (b : Bytes) : CKind :=
  if k.method = .invite then .invite (CI.step (CI.new tm) (.sendInvite ⟨b⟩)).1
  else .nonInvite (CN.step (CN.new tm) (.sendRequest ⟨b⟩)).1

/-- `Pk machine finals acks` holds of the current entry -/
def Pkm (k : Key) (Pk : Option CKind → List Resp → List (Resp × Bool) → Prop) (m : Mgr)
    (outs : List Out) : Prop :=
  Pk ((m.client.get k).map (·.kind)) (finalsOf k outs) (acksOf k outs)

section
variable (net : Nat → Bool) (k : Key) (Pk : Option CKind → List Resp → List (Resp × Bool) → Prop)
  (hfeed : ∀ kd f a ev, ev.legit → Pk (some kd) f a →
    Pk (some (kd.feed ev).1) (f ++ (kd.feed ev).2.finals) (a ++ (kd.feed ev).2.acks))
  (hgone : ∀ x f a, Pk x f a → Pk none f a)

include hfeed hgone in
theorem pk_stepApply (m m' : Mgr) (e : CEntry) (as : CActs) (ev : CEv) (outs : List Out) (hl : ev.legit)
    (hs : m.stepClient k ev = some (m', e, as)) (hP : Pkm k Pk m outs) :
    Pkm k Pk (m'.applyClient net k as).1 (outs ++ (m'.applyClient net k as).2) := by
  unfold Mgr.stepClient at hs
  cases hg : m.client.get k with
  | none => simp [hg] at hs
  | some e0 =>
    simp only [hg, Option.some.injEq, Prod.mk.injEq] at hs
    obtain ⟨rfl, rfl, rfl⟩ := hs
    unfold Pkm at hP ⊢
    rw [hg] at hP
    have hP' := hfeed _ _ _ ev hl hP
    obtain ⟨i1, i2, i3⟩ := apply_kind net k (e0.kind.feed ev).2
      { m with client := m.client.update k (fun x => { x with kind := (e0.kind.feed ev).1 }) }
      { e0 with kind := (e0.kind.feed ev).1 } (by simp [Tbl.get_update_self, hg])
      (feed_terminates_quiet e0.kind ev)
    rw [finalsOf_append, acksOf_append, i1, i2]
    rcases i3 with i3 | ⟨e', i3, i4⟩
    · rw [i3]; exact hgone _ _ _ hP'
    · rw [i3]; simpa [i4] using hP'

include hfeed hgone in
theorem pk_timer (m : Mgr) (t : Timer) (outs : List Out) (hP : Pkm k Pk m outs) :
    Pkm k Pk (m.handleClientTimer net k t).1 (outs ++ (m.handleClientTimer net k t).2) := by
  unfold Mgr.handleClientTimer
  have hc : Pkm k Pk (m.cancelClient k t) outs := by
    unfold Pkm at hP ⊢
    simp only [Mgr.cancelClient, Tbl.get_update_self]
    cases hg : m.client.get k with
    | none => simpa [hg] using hP
    | some e => simpa [hg] using hP
  split
  · simpa using hP
  · rename_i m' e as hs
    exact pk_stepApply net k Pk hfeed hgone _ m' e as (.timer t) outs trivial hs hc

include hgone in
theorem pk_launch (m : Mgr) (b : Bytes) (c : Ctx) (rem : List Ctx) (tu now : Nat) (outs : List Out)
    (hP : Pk (some (startKind k (m.timersFor c) b)) (finalsOf k outs) (acksOf k outs)) :
    Pkm k Pk (m.launch net k b c rem tu now).1 (outs ++ (m.launch net k b c rem tu now).2) := by
  unfold startKind at hP
  unfold Mgr.launch Pkm
  simp only
  by_cases hi : k.method = .invite
  · simp only [hi, if_true] at hP ⊢
    generalize hr : CI.step (CI.new (m.timersFor c)) (.sendInvite ⟨b⟩) = r at hP ⊢
    have hq : ciFinals r.2 = [] ∧ ciAcks r.2 = [] := by
      rw [← hr]
      simp only [CI.step, CI.new, CI.handleSendInvite]
      by_cases ha : (m.timersFor c).duration .A = 0 <;> simp [ciFinals, ciAcks, ha]
    obtain ⟨i1, i2, i3⟩ := apply_kind net k (.invite r.2)
      { m with client := m.client.insert k ⟨.invite r.1, c, tu, [], now, rem⟩ } _
      (Tbl.get_insert_self _ _ _) (fun _ => hq)
    rw [finalsOf_append, acksOf_append, i1, i2]
    simp only [CActs.finals, CActs.acks, hq.1, hq.2, List.append_nil]
    rcases i3 with i3 | ⟨e', i3, i4⟩
    · rw [i3]; exact hgone _ _ _ hP
    · rw [i3]; simpa [i4] using hP
  · simp only [hi, if_false] at hP ⊢
    generalize hr : CN.step (CN.new (m.timersFor c)) (.sendRequest ⟨b⟩) = r at hP ⊢
    have hq : cnFinals r.2 = [] := by
      rw [← hr]
      simp only [CN.step, CN.new, CN.handleInitialSend]
      by_cases ha : (m.timersFor c).duration .E = 0 <;> simp [cnFinals, ha]
    obtain ⟨i1, i2, i3⟩ := apply_kind net k (.nonInvite r.2)
      { m with client := m.client.insert k ⟨.nonInvite r.1, c, tu, [], now, rem⟩ } _
      (Tbl.get_insert_self _ _ _) (fun _ => ⟨hq, rfl⟩)
    rw [finalsOf_append, acksOf_append, i1, i2]
    simp only [CActs.finals, CActs.acks, hq, List.append_nil]
    rcases i3 with i3 | ⟨e', i3, i4⟩
    · rw [i3]; exact hgone _ _ _ hP
    · rw [i3]; simpa [i4] using hP

include hfeed hgone in
theorem pk_step (mayStart : Prop)
    (hstart : mayStart → ∀ x f a tm b, Pk x f a → Pk (some (startKind k tm b)) f a)
    (m : Mgr) (outs : List Out) (op : Op) (hop : op.starts k → mayStart) (hP : Pkm k Pk m outs) :
    Pkm k Pk (step net m op).1 (outs ++ (step net m op).2) := by
  refine step_client net k (Pkm k Pk) mayStart ?_ ?_ ?_ ?_ ?_ ?_ ?_ m outs op hop hP
  · intro m m' outs o hg _ _ ho hP
    obtain ⟨_, h2, h3, _⟩ := other_client k o ho
    unfold Pkm at hP ⊢
    rw [hg, finalsOf_append, acksOf_append, h2, h3]
    simpa using hP
  · intro m outs e hg hP
    unfold Pkm at hP ⊢
    rw [finalsOf_append, acksOf_append]
    simp only [Tbl.get_remove_self, finalsOf, acksOf, List.append_nil]
    exact hgone _ _ _ hP
  · intro m outs r hP
    unfold Mgr.dispatchResponse
    split
    · simpa using hP
    · rename_i m' e as hs
      refine pk_stepApply net k Pk hfeed hgone _ m' e as _ outs ?_ hs hP
      split <;> simp_all [CEv.legit]
  · intro m outs t hP; exact pk_timer net k Pk hfeed hgone m t outs hP
  · intro m outs t cs _ hP; exact pk_timer net k Pk hfeed hgone _ t outs hP
  · intro m outs cs _ hP
    unfold Mgr.processClientError
    split
    · simpa [Pkm] using hP
    · rename_i m' e as hs
      have := pk_stepApply net k Pk hfeed hgone _ m' e as .transportError outs trivial hs hP
      simp only
      unfold Pkm at this ⊢
      simpa [finalsOf_append, acksOf_append, finalsOf, acksOf] using this
  · intro m outs b c rem tu now hm _ hP
    exact pk_launch net k Pk hgone m b c rem tu now outs (hstart hm _ _ _ _ _ hP)

end

/-! ## Who is told -/

/-- the user an effect is addressed to -/
def Out.user : Out → Option Nat
  | .attempt _ _ _ _ => none
  | .respond _ _ _ _ => none
  | .provisional tu _ _ => some tu
  | .final tu _ _ => some tu
  | .ack tu _ _ _ _ => some tu
  | .prack tu _ _ _ => some tu
  | .transportError tu _ => some tu
  | .terminated tu _ _ => some tu

structure Mine (k : Key) (tu : Nat) (m : Mgr) (outs : List Out) : Prop where
  entry : ∀ e, m.client.get k = some e → e.tu = tu
  told : ∀ o ∈ outs, o.clientKey = some k → ∀ u, o.user = some u → u = tu

theorem Mine.add {k : Key} {tu : Nat} {m m' : Mgr} {outs o : List Out} (h : Mine k tu m outs)
    (he : ∀ e', m'.client.get k = some e' → e'.tu = tu)
    (ho : ∀ x ∈ o, x.clientKey = some k → ∀ u, x.user = some u → u = tu) : Mine k tu m' (outs ++ o) := by
  refine ⟨he, ?_⟩
  intro x hx
  rcases List.mem_append.mp hx with hx | hx
  · exact h.told x hx
  · exact ho x hx

theorem mine_dispatch (net : Nat → Bool) (k : Key) (tu : Nat) (b : Bytes) (m : Mgr) (outs : List Out)
    (h : Mine k tu m outs) :
    Mine k tu (m.dispatchWithFailover net k b).1 (outs ++ (m.dispatchWithFailover net k b).2) := by
  unfold Mgr.dispatchWithFailover
  cases hg : m.client.get k with
  | none => simpa using h
  | some e =>
    refine h.add ?_ ?_
    · intro e' he'
      simp only [Tbl.get_update_self, hg, Option.map_some, Option.some.injEq] at he'
      subst he'; exact h.entry e hg
    · intro x hx _ u hu
      simp only [List.mem_map] at hx
      obtain ⟨a, _, rfl⟩ := hx
      simp [Out.user] at hu

theorem mine_update (k : Key) (tu : Nat) (m : Mgr) (outs : List Out) (f : CEntry → CEntry)
    (hf : ∀ e, (f e).tu = e.tu) (h : Mine k tu m outs) (m' : Mgr)
    (hm : m'.client = m.client.update k f) : Mine k tu m' outs := by
  refine ⟨?_, h.told⟩
  intro e' he'
  rw [hm, Tbl.get_update_self] at he'
  cases hg : m.client.get k with
  | none => simp [hg] at he'
  | some e =>
    simp only [hg, Option.map_some, Option.some.injEq] at he'
    subst he'
    rw [hf]; exact h.entry e hg

theorem mine_schedule (k : Key) (tu : Nat) (t : Timer) (d : Nat) (m : Mgr) (outs : List Out)
    (h : Mine k tu m outs) : Mine k tu (m.scheduleClient k t d) outs := by
  unfold Mgr.scheduleClient
  split
  · exact h
  · split
    · exact mine_update k tu m outs (fun e => { e with timers := e.timers.filter (· ≠ t) }) (fun _ => rfl) h _ rfl
    · exact mine_update k tu m outs (fun e => { e with timers := t :: e.timers.filter (· ≠ t) }) (fun _ => rfl) h _ rfl

theorem mine_cancel (k : Key) (tu : Nat) (t : Timer) (m : Mgr) (outs : List Out)
    (h : Mine k tu m outs) : Mine k tu (m.cancelClient k t) outs :=
  mine_update k tu m outs (fun e => { e with timers := e.timers.filter (· ≠ t) }) (fun _ => rfl) h _ rfl

theorem mine_remove (k : Key) (tu : Nat) (m : Mgr) (outs : List Out)
    (h : Mine k tu m outs) : Mine k tu { m with client := m.client.remove k } outs :=
  ⟨fun e he => by simp [Tbl.get_remove_self] at he, h.told⟩

theorem mine_one (k : Key) (tu : Nat) (m : Mgr) (outs : List Out) (e : CEntry)
    (hg : m.client.get k = some e) (h : Mine k tu m outs) (x : Out) (hx : x.user = some e.tu) :
    Mine k tu m (outs ++ [x]) :=
  h.add h.entry (by
    intro y hy _ u hu
    simp only [List.mem_singleton] at hy
    subst hy
    rw [hx] at hu
    simp only [Option.some.injEq] at hu
    rw [← hu]; exact h.entry e hg)

theorem mine_deliver (k : Key) (tu : Nat) (m : Mgr) (outs : List Out) (r : Resp) (h : Mine k tu m outs) :
    Mine k tu m (outs ++ m.deliver k r) := by
  unfold Mgr.deliver
  split
  · simpa using h
  · rename_i e hg
    split
    · exact mine_one k tu m outs e hg h _ rfl
    · exact mine_one k tu m outs e hg h _ rfl

theorem mine_ci1 (net : Nat → Bool) (k : Key) (tu : Nat) (a : CIAction) (m : Mgr) (outs : List Out)
    (h : Mine k tu m outs) : Mine k tu (m.applyCI1 net k a).1 (outs ++ (m.applyCI1 net k a).2) := by
  cases a with
  | transmit b => exact mine_dispatch net k tu b m outs h
  | deliver r => exact mine_deliver k tu m outs r h
  | expectPrack r =>
    simp only [Mgr.applyCI1]
    split
    · simpa using h
    · rename_i e hg; exact mine_one k tu m outs e hg h _ rfl
  | generateAck r two =>
    simp only [Mgr.applyCI1]
    split
    · simpa using h
    · rename_i e hg; exact mine_one k tu m outs e hg h _ rfl
  | schedule t d => simpa [Mgr.applyCI1] using mine_schedule k tu t d m outs h
  | cancel t => simpa [Mgr.applyCI1] using mine_cancel k tu t m outs h
  | terminate w =>
    simp only [Mgr.applyCI1]
    split
    · simpa using mine_remove k tu m outs h
    · rename_i e hg
      exact mine_remove k tu m _ (mine_one k tu m outs e hg h _ rfl)

theorem mine_cn1 (net : Nat → Bool) (k : Key) (tu : Nat) (a : CNAction) (m : Mgr) (outs : List Out)
    (h : Mine k tu m outs) : Mine k tu (m.applyCN1 net k a).1 (outs ++ (m.applyCN1 net k a).2) := by
  cases a with
  | transmit b => exact mine_dispatch net k tu b m outs h
  | deliver r => exact mine_deliver k tu m outs r h
  | schedule t d => simpa [Mgr.applyCN1] using mine_schedule k tu t d m outs h
  | cancel t => simpa [Mgr.applyCN1] using mine_cancel k tu t m outs h
  | terminate w =>
    simp only [Mgr.applyCN1]
    split
    · simpa using h
    · rename_i e hg
      exact mine_remove k tu m _ (mine_one k tu m outs e hg h _ rfl)

theorem mine_apply (net : Nat → Bool) (k : Key) (tu : Nat) (as : CActs) (m : Mgr) (outs : List Out)
    (h : Mine k tu m outs) : Mine k tu (m.applyClient net k as).1 (outs ++ (m.applyClient net k as).2) := by
  have hreap : ∀ m outs, Mine k tu m outs → Mine k tu (m.reap k) outs := by
    intro m outs h
    unfold Mgr.reap
    split
    · exact h
    · split
      · exact mine_remove k tu m outs h
      · exact h
  cases as with
  | invite as =>
    refine hreap _ _ ?_
    simp only [Mgr.applyClient]
    induction as generalizing m outs with
    | nil => simp only [Mgr.applyCI, List.append_nil]; exact h
    | cons a as ih =>
      simp only [Mgr.applyCI, andThen]
      rw [← List.append_assoc]
      exact ih _ _ (mine_ci1 net k tu a m outs h)
  | nonInvite as =>
    refine hreap _ _ ?_
    simp only [Mgr.applyClient]
    induction as generalizing m outs with
    | nil => simp only [Mgr.applyCN, List.append_nil]; exact h
    | cons a as ih =>
      simp only [Mgr.applyCN, andThen]
      rw [← List.append_assoc]
      exact ih _ _ (mine_cn1 net k tu a m outs h)

theorem mine_stepApply (net : Nat → Bool) (k : Key) (tu : Nat) (m m' : Mgr) (e : CEntry) (as : CActs)
    (ev : CEv) (outs : List Out) (hs : m.stepClient k ev = some (m', e, as)) (h : Mine k tu m outs) :
    Mine k tu (m'.applyClient net k as).1 (outs ++ (m'.applyClient net k as).2) ∧ e.tu = tu := by
  unfold Mgr.stepClient at hs
  split at hs
  · simp at hs
  · rename_i e0 hg
    simp only [Option.some.injEq, Prod.mk.injEq] at hs
    obtain ⟨rfl, rfl, rfl⟩ := hs
    refine ⟨mine_apply net k tu _ _ outs ?_, h.entry _ hg⟩
    exact mine_update k tu m outs (fun x => { x with kind := (e0.kind.feed ev).1 }) (fun _ => rfl) h _ rfl

theorem mine_step (net : Nat → Bool) (k : Key) (tu : Nat) (m : Mgr) (outs : List Out) (op : Op)
    (hop : ¬ op.starts k) (h : Mine k tu m outs) :
    Mine k tu (step net m op).1 (outs ++ (step net m op).2) := by
  have htimer : ∀ m outs t, Mine k tu m outs →
      Mine k tu (m.handleClientTimer net k t).1 (outs ++ (m.handleClientTimer net k t).2) := by
    intro m outs t h
    unfold Mgr.handleClientTimer
    split
    · simpa using h
    · rename_i m' e as hs
      exact (mine_stepApply net k tu _ m' e as _ outs hs (mine_cancel k tu t m outs h)).1
  refine step_client net k (Mine k tu) False ?_ ?_ ?_ ?_ ?_ ?_ ?_ m outs op (fun x => hop x) h
  · intro m m' outs o hg _ _ ho h
    exact h.add (fun e' he' => h.entry e' (hg ▸ he')) (fun x hx hk => absurd hk (ho x hx))
  · intro m outs e hg h
    exact mine_remove k tu m _ (mine_one k tu m outs e hg h _ rfl)
  · intro m outs r h
    unfold Mgr.dispatchResponse
    split
    · simpa using h
    · rename_i m' e as hs
      exact (mine_stepApply net k tu _ m' e as _ outs hs h).1
  · exact htimer
  · intro m outs t cs _ h; exact htimer _ outs t ⟨h.entry, h.told⟩
  · intro m outs cs _ h
    unfold Mgr.processClientError
    split
    · simp only [List.append_nil]; exact ⟨h.entry, h.told⟩
    · rename_i m' e as hs
      obtain ⟨h1, h2⟩ := mine_stepApply net k tu _ m' e as _ outs hs ⟨h.entry, h.told⟩
      refine ⟨h1.entry, ?_⟩
      intro o ho
      simp only [List.mem_append, List.mem_cons] at ho
      rcases ho with ho | rfl | ho
      · exact h.told o ho
      · intro _ u hu
        simp only [Out.user, Option.some.injEq] at hu
        omega
      · exact h1.told o (by simp [ho])
  · intro _ _ _ _ _ _ _ hF; exact hF.elim

theorem mine_launch (net : Nat → Bool) (k : Key) (b : Bytes) (c : Ctx) (rem : List Ctx) (tu now : Nat)
    (m : Mgr) (outs : List Out) (h : Fresh k m outs) :
    Mine k tu (m.launch net k b c rem tu now).1 (outs ++ (m.launch net k b c rem tu now).2) := by
  have base : ∀ kd, Mine k tu { m with client := m.client.insert k ⟨kd, c, tu, [], now, rem⟩ } outs := by
    intro kd
    refine ⟨?_, fun o ho hk => absurd hk (h.2.2 o ho)⟩
    intro e he
    simp only [Tbl.get_insert_self, Option.some.injEq] at he
    subst he; rfl
  unfold Mgr.launch
  simp only
  split
  · exact mine_apply net k tu _ _ outs (base _)
  · exact mine_apply net k tu _ _ outs (base _)

end Siphon.Manager
