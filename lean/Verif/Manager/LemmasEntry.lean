import Verif.Manager.LemmasServer
/-! Proof internals: the entry of one transaction while actions are applied to it. -/

namespace Siphon.Manager
open Siphon.Fsm
set_option linter.unusedSimpArgs false

/-! ## Effects of other transactions are invisible -/

theorem attemptsOf_append (k : Key) (a b : List Out) :
    attemptsOf k (a ++ b) = attemptsOf k a ++ attemptsOf k b := by
  induction a with
  | nil => rfl
  | cons x xs ih =>
    cases x <;> simp only [List.cons_append, attemptsOf, ih]
    split <;> simp

theorem finalsOf_append (k : Key) (a b : List Out) :
    finalsOf k (a ++ b) = finalsOf k a ++ finalsOf k b := by
  induction a with
  | nil => rfl
  | cons x xs ih =>
    cases x <;> simp only [List.cons_append, finalsOf, ih]
    split <;> simp

theorem acksOf_append (k : Key) (a b : List Out) :
    acksOf k (a ++ b) = acksOf k a ++ acksOf k b := by
  induction a with
  | nil => rfl
  | cons x xs ih =>
    cases x <;> simp only [List.cons_append, acksOf, ih]
    split <;> simp

theorem errorsOf_append (k : Key) (a b : List Out) :
    errorsOf k (a ++ b) = errorsOf k a + errorsOf k b := by
  induction a with
  | nil => simp [errorsOf]
  | cons x xs ih =>
    cases x <;> simp only [List.cons_append, errorsOf, ih]
    split <;> omega

theorem endsOf_append (k : Key) (a b : List Out) :
    endsOf k (a ++ b) = endsOf k a + endsOf k b := by
  induction a with
  | nil => simp [endsOf]
  | cons x xs ih =>
    cases x <;> simp only [List.cons_append, endsOf, ih]
    split <;> omega

theorem responsesOf_append (k : Key) (a b : List Out) :
    responsesOf k (a ++ b) = responsesOf k a ++ responsesOf k b := by
  induction a with
  | nil => rfl
  | cons x xs ih =>
    cases x <;> simp only [List.cons_append, responsesOf, ih]
    split <;> simp

theorem other_client (k : Key) (o : List Out) (h : ∀ x ∈ o, x.clientKey ≠ some k) :
    attemptsOf k o = [] ∧ finalsOf k o = [] ∧ acksOf k o = [] ∧ errorsOf k o = 0 ∧ endsOf k o = 0 := by
  induction o with
  | nil => simp [attemptsOf, finalsOf, acksOf, errorsOf, endsOf]
  | cons x xs ih =>
    have hx := h x (by simp)
    have hr := ih (fun y hy => h y (by simp [hy]))
    cases x <;> simp_all [attemptsOf, finalsOf, acksOf, errorsOf, endsOf, Out.clientKey]

theorem other_server (k : Key) (o : List Out) (h : ∀ x ∈ o, x.serverKey ≠ some k) :
    responsesOf k o = [] := by
  induction o with
  | nil => simp [responsesOf]
  | cons x xs ih =>
    have hx := h x (by simp)
    have hr := ih (fun y hy => h y (by simp [hy]))
    cases x <;> simp_all [responsesOf, Out.serverKey]

/-! ## The entry while actions are applied -/

theorem applyCI1_none (net : Nat → Bool) (k : Key) (a : CIAction) (m : Mgr)
    (h : m.client.get k = none) :
    (m.applyCI1 net k a).1.client.get k = none ∧ (m.applyCI1 net k a).2 = [] := by
  cases a <;> simp [Mgr.applyCI1, Mgr.dispatchWithFailover, Mgr.deliver, Mgr.scheduleClient,
    Mgr.cancelClient, Tbl.get_update_self, Tbl.get_remove_self, h]

theorem applyCI_none (net : Nat → Bool) (k : Key) (as : List CIAction) (m : Mgr)
    (h : m.client.get k = none) :
    (m.applyCI net k as).1.client.get k = none ∧ (m.applyCI net k as).2 = [] := by
  induction as generalizing m with
  | nil => exact ⟨h, rfl⟩
  | cons a as ih =>
    obtain ⟨h1, h2⟩ := applyCI1_none net k a m h
    obtain ⟨h3, h4⟩ := ih _ h1
    exact ⟨h3, by simp [Mgr.applyCI, andThen, h2, h4]⟩

theorem applyCN1_none (net : Nat → Bool) (k : Key) (a : CNAction) (m : Mgr)
    (h : m.client.get k = none) :
    (m.applyCN1 net k a).1.client.get k = none ∧ (m.applyCN1 net k a).2 = [] := by
  cases a <;> simp [Mgr.applyCN1, Mgr.dispatchWithFailover, Mgr.deliver, Mgr.scheduleClient,
    Mgr.cancelClient, Tbl.get_update_self, Tbl.get_remove_self, h]

theorem applyCN_none (net : Nat → Bool) (k : Key) (as : List CNAction) (m : Mgr)
    (h : m.client.get k = none) :
    (m.applyCN net k as).1.client.get k = none ∧ (m.applyCN net k as).2 = [] := by
  induction as generalizing m with
  | nil => exact ⟨h, rfl⟩
  | cons a as ih =>
    obtain ⟨h1, h2⟩ := applyCN1_none net k a m h
    obtain ⟨h3, h4⟩ := ih _ h1
    exact ⟨h3, by simp [Mgr.applyCN, andThen, h2, h4]⟩

theorem applyServer1_none (net : Nat → Bool) (k : Key) (a : SAction) (m : Mgr)
    (h : m.server.get k = none) :
    (m.applyServer1 net k a).1.server.get k = none ∧ (m.applyServer1 net k a).2 = [] := by
  cases a <;> simp [Mgr.applyServer1, Mgr.scheduleServer,
    Mgr.cancelServer, Tbl.get_update_self, Tbl.get_remove_self, h]

theorem applyServer_none (net : Nat → Bool) (k : Key) (as : List SAction) (m : Mgr)
    (h : m.server.get k = none) :
    (m.applyServer net k as).1.server.get k = none ∧ (m.applyServer net k as).2 = [] := by
  induction as generalizing m with
  | nil => exact ⟨h, rfl⟩
  | cons a as ih =>
    obtain ⟨h1, h2⟩ := applyServer1_none net k a m h
    obtain ⟨h3, h4⟩ := ih _ h1
    exact ⟨h3, by simp [Mgr.applyServer, andThen, h2, h4]⟩

/-- timer `t` of client `k` is armed, or its expiry is already queued -/
def GuardC (k : Key) (m : Mgr) (e : CEntry) (t : Timer) : Prop :=
  t ∈ e.timers ∨ Cmd.clientTimer k t ∈ m.pending

def GuardS (k : Key) (m : Mgr) (e : SEntry) (t : Timer) : Prop :=
  t ∈ e.timers ∨ Cmd.serverTimer k t ∈ m.pending

/-- is timer `t` guarded after these actions, given whether it was before? -/
def keepsCI (t : Timer) : List CIAction → Prop → Prop
  | [], p => p
  | .schedule t' _ :: as, p => keepsCI t as (p ∨ t = t')
  | .cancel t' :: as, p => keepsCI t as (p ∧ t ≠ t')
  | _ :: as, p => keepsCI t as p

def keepsCN (t : Timer) : List CNAction → Prop → Prop
  | [], p => p
  | .schedule t' _ :: as, p => keepsCN t as (p ∨ t = t')
  | .cancel t' :: as, p => keepsCN t as (p ∧ t ≠ t')
  | _ :: as, p => keepsCN t as p

def keepsS (t : Timer) : List SAction → Prop → Prop
  | [], p => p
  | .schedule t' _ :: as, p => keepsS t as (p ∨ t = t')
  | .cancel t' :: as, p => keepsS t as (p ∧ t ≠ t')
  | _ :: as, p => keepsS t as p

theorem keepsCI_mono (t : Timer) (as : List CIAction) (p q : Prop) (h : p → q)
    (hk : keepsCI t as p) : keepsCI t as q := by
  induction as generalizing p q with
  | nil => exact h hk
  | cons a as ih =>
    cases a <;> simp only [keepsCI] at hk ⊢
    case schedule => exact ih _ _ (Or.imp_left h) hk
    case cancel => exact ih _ _ (And.imp_left h) hk
    all_goals exact ih _ _ h hk

theorem keepsCN_mono (t : Timer) (as : List CNAction) (p q : Prop) (h : p → q)
    (hk : keepsCN t as p) : keepsCN t as q := by
  induction as generalizing p q with
  | nil => exact h hk
  | cons a as ih =>
    cases a <;> simp only [keepsCN] at hk ⊢
    case schedule => exact ih _ _ (Or.imp_left h) hk
    case cancel => exact ih _ _ (And.imp_left h) hk
    all_goals exact ih _ _ h hk

theorem keepsS_mono (t : Timer) (as : List SAction) (p q : Prop) (h : p → q)
    (hk : keepsS t as p) : keepsS t as q := by
  induction as generalizing p q with
  | nil => exact h hk
  | cons a as ih =>
    cases a <;> simp only [keepsS] at hk ⊢
    case schedule => exact ih _ _ (Or.imp_left h) hk
    case cancel => exact ih _ _ (And.imp_left h) hk
    all_goals exact ih _ _ h hk

/-- what a timer action does to the entry, for a generic action -/
theorem schedule_guard (k : Key) (t' : Timer) (d : Nat) (m : Mgr) (e : CEntry)
    (h : m.client.get k = some e) :
    ∃ e', (m.scheduleClient k t' d).client.get k = some e' ∧ e'.kind = e.kind ∧ e'.tu = e.tu ∧
      ∀ t, (GuardC k m e t ∨ t = t') → GuardC k (m.scheduleClient k t' d) e' t := by
  by_cases hd : d = 0
  · refine ⟨{ e with timers := e.timers.filter (· ≠ t') }, ?_, rfl, rfl, ?_⟩
    · simp [Mgr.scheduleClient, h, hd, Tbl.get_update_self]
    · intro t ht
      simp only [GuardC, Mgr.scheduleClient, h, hd, if_true, List.mem_filter, List.mem_append,
        List.mem_singleton] at ht ⊢
      by_cases htt : t = t'
      · right; right; simp [htt]
      · rcases ht with (ht | ht) | ht
        · exact Or.inl ⟨ht, by simpa using htt⟩
        · exact Or.inr (Or.inl ht)
        · exact absurd ht htt
  · refine ⟨{ e with timers := t' :: e.timers.filter (· ≠ t') }, ?_, rfl, rfl, ?_⟩
    · simp [Mgr.scheduleClient, h, hd, Tbl.get_update_self]
    · intro t ht
      simp only [GuardC, Mgr.scheduleClient, h, hd, if_false, List.mem_filter, List.mem_cons] at ht ⊢
      by_cases htt : t = t'
      · left; left; exact htt
      · rcases ht with (ht | ht) | ht
        · exact Or.inl (Or.inr ⟨ht, by simpa using htt⟩)
        · exact Or.inr ht
        · exact absurd ht htt

theorem schedule_guardS (k : Key) (t' : Timer) (d : Nat) (m : Mgr) (e : SEntry)
    (h : m.server.get k = some e) :
    ∃ e', (m.scheduleServer k t' d).server.get k = some e' ∧ e'.kind = e.kind ∧ e'.ctx = e.ctx ∧
      ∀ t, (GuardS k m e t ∨ t = t') → GuardS k (m.scheduleServer k t' d) e' t := by
  by_cases hd : d = 0
  · refine ⟨{ e with timers := e.timers.filter (· ≠ t') }, ?_, rfl, rfl, ?_⟩
    · simp [Mgr.scheduleServer, h, hd, Tbl.get_update_self]
    · intro t ht
      simp only [GuardS, Mgr.scheduleServer, h, hd, if_true, List.mem_filter, List.mem_append,
        List.mem_singleton] at ht ⊢
      by_cases htt : t = t'
      · right; right; simp [htt]
      · rcases ht with (ht | ht) | ht
        · exact Or.inl ⟨ht, by simpa using htt⟩
        · exact Or.inr (Or.inl ht)
        · exact absurd ht htt
  · refine ⟨{ e with timers := t' :: e.timers.filter (· ≠ t') }, ?_, rfl, rfl, ?_⟩
    · simp [Mgr.scheduleServer, h, hd, Tbl.get_update_self]
    · intro t ht
      simp only [GuardS, Mgr.scheduleServer, h, hd, if_false, List.mem_filter, List.mem_cons] at ht ⊢
      by_cases htt : t = t'
      · left; left; exact htt
      · rcases ht with (ht | ht) | ht
        · exact Or.inl (Or.inr ⟨ht, by simpa using htt⟩)
        · exact Or.inr ht
        · exact absurd ht htt

theorem cancel_guard (k : Key) (t' : Timer) (m : Mgr) (e : CEntry)
    (h : m.client.get k = some e) :
    ∃ e', (m.cancelClient k t').client.get k = some e' ∧ e'.kind = e.kind ∧ e'.tu = e.tu ∧
      ∀ t, (GuardC k m e t ∧ t ≠ t') → GuardC k (m.cancelClient k t') e' t := by
  refine ⟨{ e with timers := e.timers.filter (· ≠ t') }, ?_, rfl, rfl, ?_⟩
  · simp [Mgr.cancelClient, h, Tbl.get_update_self]
  · rintro t ⟨ht | ht, htt⟩
    · left; simp [ht, htt]
    · right; exact ht

theorem cancel_guardS (k : Key) (t' : Timer) (m : Mgr) (e : SEntry)
    (h : m.server.get k = some e) :
    ∃ e', (m.cancelServer k t').server.get k = some e' ∧ e'.kind = e.kind ∧ e'.ctx = e.ctx ∧
      ∀ t, (GuardS k m e t ∧ t ≠ t') → GuardS k (m.cancelServer k t') e' t := by
  refine ⟨{ e with timers := e.timers.filter (· ≠ t') }, ?_, rfl, rfl, ?_⟩
  · simp [Mgr.cancelServer, h, Tbl.get_update_self]
  · rintro t ⟨ht | ht, htt⟩
    · left; simp [ht, htt]
    · right; exact ht

theorem dispatch_guard (net : Nat → Bool) (k : Key) (b : Bytes) (m : Mgr) (e : CEntry)
    (h : m.client.get k = some e) :
    ∃ e', (m.dispatchWithFailover net k b).1.client.get k = some e' ∧ e'.kind = e.kind ∧
      e'.tu = e.tu ∧ ∀ t, GuardC k m e t → GuardC k (m.dispatchWithFailover net k b).1 e' t := by
  unfold Mgr.dispatchWithFailover
  rw [h]
  simp only
  generalize failover net m.sends e.ctx e.remaining = r
  obtain ⟨ok, c, rem, as⟩ := r
  refine ⟨{ e with ctx := c, remaining := rem }, ?_, rfl, rfl, ?_⟩
  · simp [Tbl.get_update_self, h]
  · intro t ht
    rcases ht with ht | ht
    · exact Or.inl ht
    · right
      cases ok <;> simp [ht]

/-- The entry survives a list of actions without `terminate`, keeps its machine and user, and its
timers are as the actions say. -/
theorem applyCI_entry (net : Nat → Bool) (k : Key) (as : List CIAction) (m : Mgr) (e : CEntry)
    (h : m.client.get k = some e) (hnt : ∀ w, .terminate w ∉ as) :
    ∃ e', (m.applyCI net k as).1.client.get k = some e' ∧ e'.kind = e.kind ∧ e'.tu = e.tu ∧
      (∀ t, keepsCI t as (GuardC k m e t) → GuardC k (m.applyCI net k as).1 e' t) := by
  induction as generalizing m e with
  | nil => exact ⟨e, h, rfl, rfl, fun t ht => ht⟩
  | cons a as ih =>
    have hnt' : ∀ w, .terminate w ∉ as := fun w hw => hnt w (by simp [hw])
    have go : ∀ e1, (m.applyCI1 net k a).1.client.get k = some e1 → e1.kind = e.kind → e1.tu = e.tu →
        (∀ t, keepsCI t (a :: as) (GuardC k m e t) → keepsCI t as (GuardC k (m.applyCI1 net k a).1 e1 t)) →
        ∃ e', (m.applyCI net k (a :: as)).1.client.get k = some e' ∧ e'.kind = e.kind ∧
          e'.tu = e.tu ∧ (∀ t, keepsCI t (a :: as) (GuardC k m e t) →
            GuardC k (m.applyCI net k (a :: as)).1 e' t) := by
      intro e1 h1 hk ht hg
      obtain ⟨e', h2, hk2, ht2, hg2⟩ := ih _ e1 h1 hnt'
      exact ⟨e', h2, hk2.trans hk, ht2.trans ht, fun t htt => hg2 t (hg t htt)⟩
    cases a with
    | transmit b =>
      obtain ⟨e1, h1, hk, ht, hg⟩ := dispatch_guard net k b m e h
      exact go e1 h1 hk ht (fun t => keepsCI_mono t as _ _ (hg t))
    | deliver r => exact go e h rfl rfl (fun t ht => ht)
    | expectPrack r =>
      exact go e (by simp [Mgr.applyCI1, h]) rfl rfl
        (fun t ht => by simpa [Mgr.applyCI1, h, keepsCI, GuardC] using ht)
    | generateAck r two =>
      exact go e (by simp [Mgr.applyCI1, h]) rfl rfl
        (fun t ht => by simpa [Mgr.applyCI1, h, keepsCI, GuardC] using ht)
    | schedule t' d =>
      obtain ⟨e1, h1, hk, ht, hg⟩ := schedule_guard k t' d m e h
      exact go e1 h1 hk ht (fun t => keepsCI_mono t as _ _ (hg t))
    | cancel t' =>
      obtain ⟨e1, h1, hk, ht, hg⟩ := cancel_guard k t' m e h
      exact go e1 h1 hk ht (fun t => keepsCI_mono t as _ _ (hg t))
    | terminate w => exact absurd (by simp) (hnt w)

theorem applyCN_entry (net : Nat → Bool) (k : Key) (as : List CNAction) (m : Mgr) (e : CEntry)
    (h : m.client.get k = some e) (hnt : ∀ w, .terminate w ∉ as) :
    ∃ e', (m.applyCN net k as).1.client.get k = some e' ∧ e'.kind = e.kind ∧ e'.tu = e.tu ∧
      (∀ t, keepsCN t as (GuardC k m e t) → GuardC k (m.applyCN net k as).1 e' t) := by
  induction as generalizing m e with
  | nil => exact ⟨e, h, rfl, rfl, fun t ht => ht⟩
  | cons a as ih =>
    have hnt' : ∀ w, .terminate w ∉ as := fun w hw => hnt w (by simp [hw])
    have go : ∀ e1, (m.applyCN1 net k a).1.client.get k = some e1 → e1.kind = e.kind → e1.tu = e.tu →
        (∀ t, keepsCN t (a :: as) (GuardC k m e t) → keepsCN t as (GuardC k (m.applyCN1 net k a).1 e1 t)) →
        ∃ e', (m.applyCN net k (a :: as)).1.client.get k = some e' ∧ e'.kind = e.kind ∧
          e'.tu = e.tu ∧ (∀ t, keepsCN t (a :: as) (GuardC k m e t) →
            GuardC k (m.applyCN net k (a :: as)).1 e' t) := by
      intro e1 h1 hk ht hg
      obtain ⟨e', h2, hk2, ht2, hg2⟩ := ih _ e1 h1 hnt'
      exact ⟨e', h2, hk2.trans hk, ht2.trans ht, fun t htt => hg2 t (hg t htt)⟩
    cases a with
    | transmit b =>
      obtain ⟨e1, h1, hk, ht, hg⟩ := dispatch_guard net k b m e h
      exact go e1 h1 hk ht (fun t => keepsCN_mono t as _ _ (hg t))
    | deliver r => exact go e h rfl rfl (fun t ht => ht)
    | schedule t' d =>
      obtain ⟨e1, h1, hk, ht, hg⟩ := schedule_guard k t' d m e h
      exact go e1 h1 hk ht (fun t => keepsCN_mono t as _ _ (hg t))
    | cancel t' =>
      obtain ⟨e1, h1, hk, ht, hg⟩ := cancel_guard k t' m e h
      exact go e1 h1 hk ht (fun t => keepsCN_mono t as _ _ (hg t))
    | terminate w => exact absurd (by simp) (hnt w)

theorem applyServer_entry (net : Nat → Bool) (k : Key) (as : List SAction) (m : Mgr) (e : SEntry)
    (h : m.server.get k = some e) (hnt : ∀ w, .terminate w ∉ as) :
    ∃ e', (m.applyServer net k as).1.server.get k = some e' ∧ e'.kind = e.kind ∧ e'.ctx = e.ctx ∧
      (∀ t, keepsS t as (GuardS k m e t) → GuardS k (m.applyServer net k as).1 e' t) := by
  induction as generalizing m e with
  | nil => exact ⟨e, h, rfl, rfl, fun t ht => ht⟩
  | cons a as ih =>
    have hnt' : ∀ w, .terminate w ∉ as := fun w hw => hnt w (by simp [hw])
    have go : ∀ e1, (m.applyServer1 net k a).1.server.get k = some e1 → e1.kind = e.kind → e1.ctx = e.ctx →
        (∀ t, keepsS t (a :: as) (GuardS k m e t) → keepsS t as (GuardS k (m.applyServer1 net k a).1 e1 t)) →
        ∃ e', (m.applyServer net k (a :: as)).1.server.get k = some e' ∧ e'.kind = e.kind ∧
          e'.ctx = e.ctx ∧ (∀ t, keepsS t (a :: as) (GuardS k m e t) →
            GuardS k (m.applyServer net k (a :: as)).1 e' t) := by
      intro e1 h1 hk ht hg
      obtain ⟨e', h2, hk2, ht2, hg2⟩ := ih _ e1 h1 hnt'
      exact ⟨e', h2, hk2.trans hk, ht2.trans ht, fun t htt => hg2 t (hg t htt)⟩
    cases a with
    | transmit b =>
      refine go e ?_ rfl rfl ?_
      · simp [Mgr.applyServer1, h]
      · intro t ht
        refine keepsS_mono t as _ _ ?_ ht
        simp only [Mgr.applyServer1, h, GuardS]
        rintro (hg | hg)
        · exact Or.inl hg
        · right; split <;> simp [hg]
    | schedule t' d =>
      obtain ⟨e1, h1, hk, ht, hg⟩ := schedule_guardS k t' d m e h
      exact go e1 h1 hk ht (fun t => keepsS_mono t as _ _ (hg t))
    | cancel t' =>
      obtain ⟨e1, h1, hk, ht, hg⟩ := cancel_guardS k t' m e h
      exact go e1 h1 hk ht (fun t => keepsS_mono t as _ _ (hg t))
    | terminate w => exact absurd (by simp) (hnt w)

/-- `terminate` removes the entry -/
theorem applyCI_terminate (net : Nat → Bool) (k : Key) (as : List CIAction) (m : Mgr) (w : String)
    (h : .terminate w ∈ as) : (m.applyCI net k as).1.client.get k = none := by
  induction as generalizing m with
  | nil => simp at h
  | cons a as ih =>
    rcases List.mem_cons.mp h with rfl | h
    · refine (applyCI_none net k as _ ?_).1
      simp only [Mgr.applyCI1]
      split <;> simp [Tbl.get_remove_self]
    · exact ih _ h

theorem applyCN_terminate (net : Nat → Bool) (k : Key) (as : List CNAction) (m : Mgr) (w : String)
    (h : .terminate w ∈ as) : (m.applyCN net k as).1.client.get k = none := by
  induction as generalizing m with
  | nil => simp at h
  | cons a as ih =>
    rcases List.mem_cons.mp h with rfl | h
    · refine (applyCN_none net k as _ ?_).1
      simp only [Mgr.applyCN1]
      split
      · assumption
      · simp [Tbl.get_remove_self]
    · exact ih _ h

theorem applyServer_terminate (net : Nat → Bool) (k : Key) (as : List SAction) (m : Mgr) (w : String)
    (h : .terminate w ∈ as) : (m.applyServer net k as).1.server.get k = none := by
  induction as generalizing m with
  | nil => simp at h
  | cons a as ih =>
    rcases List.mem_cons.mp h with rfl | h
    · refine (applyServer_none net k as _ ?_).1
      simp [Mgr.applyServer1, Tbl.get_remove_self]
    · exact ih _ h

theorem reap_none (k : Key) (m : Mgr) (h : m.client.get k = none) : (m.reap k).client.get k = none := by
  simp [Mgr.reap, h]

theorem reap_some (k : Key) (m : Mgr) (e : CEntry) (h : m.client.get k = some e) :
    (m.reap k).client.get k = if e.kind.isTerminated then none else some e := by
  simp only [Mgr.reap, h]
  split
  · simp [Tbl.get_remove_self]
  · exact h

theorem reap_pending (k : Key) (m : Mgr) : (m.reap k).pending = m.pending := by
  unfold Mgr.reap
  split
  · rfl
  · split <;> rfl

end Siphon.Manager
