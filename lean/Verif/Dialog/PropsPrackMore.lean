import Verif.Dialog.PropsReliable
set_option linter.unusedSimpArgs false
/-!
# More about reliable provisional responses: C20, C84
-/
namespace Siphon.Dlg
open Spec TextSpec HdrSpec

/-- **C20.** What an RAck is written as is read as the same RAck. -/
theorem C20_written (r : RAck) (h1 : r.rseq < 2 ^ 32) (h2 : r.cseq < 2 ^ 32) (hm : Known r.method) :
    RAckText r.format r ∧ RAck.parse r.format = .ok r := by
  have hw : r.method.asStr ≠ [] ∧ (∀ c ∈ r.method.asStr, isWs c = false) ∧ (∀ c ∈ r.method.asStr, c.toNat < 128) := by
    cases hc : r.method with
    | unknown t => exact absurd hc (hm t)
    | _ => exact ⟨by decide, by decide, by decide⟩
  have key : RAckText r.format r := by
    unfold RAck.format
    refine ⟨showNat r.rseq, showNat r.cseq, r.method.asStr, ?_, decimal_showNat _, h1, decimal_showNat _, h2, hm, sameName_refl _⟩
    have e1 : Words (' ' :: r.method.asStr) [r.method.asStr] := by
      have := Words.cons (lead := [' ']) (w := r.method.asStr) (rest := []) (ws := []) (by decide) hw.1 hw.2.1 (by simp) (.nil (by simp))
      simpa using this
    have e2 : Words (' ' :: showNat r.cseq ++ ' ' :: r.method.asStr) [showNat r.cseq, r.method.asStr] := by
      have := Words.cons (lead := [' ']) (w := showNat r.cseq) (rest := ' ' :: r.method.asStr) (by decide) (showNat_ne_nil _)
        (decimal_no_ws (decimal_showNat _)).2 (by simp; decide) e1
      simpa using this
    have := Words.cons (lead := []) (w := showNat r.rseq) (rest := ' ' :: showNat r.cseq ++ ' ' :: r.method.asStr) (by simp)
      (showNat_ne_nil _) (decimal_no_ws (decimal_showNat _)).2 (by simp; decide) e2
    simpa using this
  refine ⟨key, (C20_read _ ?_ _).2 key⟩
  have dig : ∀ (n : Nat) c, c ∈ showNat n → c.toNat < 128 := by
    intro n c hc
    have := showNat_digits n c hc
    unfold isDigit at this
    simp at this
    have h2 : c.toNat ≤ 57 := this.2
    omega
  intro c hc
  unfold RAck.format at hc
  simp only [List.mem_append, List.mem_cons] at hc
  rcases hc with (h | rfl | h) | rfl | h
  · exact dig _ _ h
  · decide
  · exact dig _ _ h
  · decide
  · exact hw.2.2 _ h

example : RAck.format (RAck.mk 776656 1 .invite) = "776656 1 INVITE".toList := by decide +kernel

/-- **C20.** A response counts as a reliable provisional one exactly if its code is between 101 and 199 and it has an
RSeq header. -/
theorem C20_reliable_iff (code : Nat) (hs : Headers) :
    isReliableProvisional code hs = true ↔ 101 ≤ code ∧ code ≤ 199 ∧ ∃ v, First hs "RSeq" v := by
  unfold isReliableProvisional
  simp only [first_iff, Bool.and_eq_true, decide_eq_true_eq, Option.isSome_iff_exists]
  constructor
  · rintro ⟨⟨⟨h1, h2⟩, h3⟩, h4⟩; exact ⟨by omega, by omega, h4⟩
  · rintro ⟨h1, h2, h3⟩; exact ⟨⟨⟨by omega, by omega⟩, by omega⟩, h3⟩

/-! ## Old responses are forgotten -/

/-- The time of an operation, if it has one. -/
def Spec.timeOf : POp → Option Nat
  | .register _ now _ _ _ _ => some now
  | .prack _ now _ => some now
  | .getPending _ now => some now
  | .removeDialog _ => none
  | .removePracked _ _ => none

/-- Every pending response was registered, and the last cleanup of its dialog was at most 300 s after that and not after
`T`. -/
def Aged (R : POp → Prop) (T : Nat) (s : Validator) : Prop :=
  (∀ d c, s.lastCleanup.get d = some c → c ≤ T) ∧
  ∀ d l, s.pending.get d = some l → ∃ c, s.lastCleanup.get d = some c ∧
    ∀ p ∈ l, c ≤ p.createdAt + 300 * 10 ^ 9 ∧ R (.register d p.createdAt p.rseq p.cseq p.method p.code)

theorem aged_sub {R : POp → Prop} {T : Nat} {s : Validator} (h : Aged R T s) (t : Tbl Str (List Pending))
    (ht : ∀ d l, t.get d = some l → ∃ l', s.pending.get d = some l' ∧ ∀ p ∈ l, ∃ p' ∈ l', p'.createdAt = p.createdAt ∧
      p'.rseq = p.rseq ∧ p'.cseq = p.cseq ∧ p'.method = p.method ∧ p'.code = p.code) :
    Aged R T { s with pending := t } := by
  refine ⟨h.1, ?_⟩
  intro d l hl
  obtain ⟨l', h1, h2⟩ := ht d l hl
  obtain ⟨c, h3, h4⟩ := h.2 d l' h1
  refine ⟨c, h3, fun p hp => ?_⟩
  obtain ⟨p', hp', e1, e2, e3, e4, e5⟩ := h2 p hp
  have := h4 p' hp'
  rw [e1, e2, e3, e4, e5] at this
  exact this

theorem update_sub (t : Tbl Str (List Pending)) (d : Str) (f : List Pending → List Pending) (hf : ∀ l, ∀ p ∈ f l, p ∈ l)
    (d' : Str) (l : List Pending) (h : (t.update d f).get d' = some l) :
    ∃ l', t.get d' = some l' ∧ (∀ p ∈ l, p ∈ l') ∧ (d' = d → l = f l') := by
  by_cases e : d' = d
  · subst e
    rw [Tbl.get_update_self] at h
    cases hg : t.get d' with
    | none => rw [hg] at h; cases h
    | some l0 =>
      rw [hg] at h
      simp only [Option.map_some, Option.some.injEq] at h
      subst h
      exact ⟨l0, rfl, hf l0, fun _ => rfl⟩
  · rw [Tbl.get_update_ne _ _ e] at h
    exact ⟨l, h, fun _ hp => hp, fun hh => absurd hh e⟩

theorem retain_sub (t : Tbl Str (List Pending)) (d : Str) (now : Nat) (d' : Str) (l : List Pending)
    (h : (retainAtom t d now).get d' = some l) :
    ∃ l', t.get d' = some l' ∧ (∀ p ∈ l, p ∈ l') ∧ (d' = d → ∀ p ∈ l, now ≤ p.createdAt + 300 * 10 ^ 9) := by
  unfold retainAtom at h
  obtain ⟨l', h1, h2, h3⟩ := update_sub _ _ _ (fun l p hp => (List.mem_filter.1 hp).1) d' l h
  refine ⟨l', h1, h2, fun e p hp => ?_⟩
  rw [h3 e] at hp
  have := (List.mem_filter.1 hp).2
  rw [Bool.and_eq_true, decide_eq_true_eq] at this
  have := this.2
  unfold PRACK_TIMEOUT at this
  omega

theorem aged_cleanup {R : POp → Prop} {T : Nat} {s : Validator} (h : Aged R T s) (d : Str) (now : Nat) (hT : T ≤ now) :
    Aged R now (s.cleanup d now) ∧ ∀ l, (s.cleanup d now).pending.get d = some l → ∀ p ∈ l, now < p.createdAt + 600 * 10 ^ 9 := by
  unfold Validator.cleanup
  split
  · rename_i hdue
    refine ⟨⟨?_, ?_⟩, ?_⟩
    · intro d' c hc
      by_cases e : d' = d
      · subst e
        simp only [Tbl.get_insert_self, Option.some.injEq] at hc
        omega
      · simp only [Tbl.get_insert_ne _ _ e] at hc
        exact Nat.le_trans (h.1 _ _ hc) hT
    · intro d' l hl
      obtain ⟨l', h1, h2, h3⟩ := retain_sub _ _ _ d' l hl
      obtain ⟨c, h4, h5⟩ := h.2 d' l' h1
      by_cases e : d' = d
      · refine ⟨now, ?_, fun p hp => ⟨h3 e p hp, (h5 p (h2 p hp)).2⟩⟩
        subst e; exact Tbl.get_insert_self ..
      · refine ⟨c, ?_, fun p hp => h5 p (h2 p hp)⟩
        exact (Tbl.get_insert_ne _ _ e).trans h4
    · intro l hl p hp
      obtain ⟨l', h1, h2, h3⟩ := retain_sub _ _ _ d l hl
      have := h3 rfl p hp
      omega
  · rename_i hdue
    refine ⟨⟨fun d' c hc => Nat.le_trans (h.1 _ _ hc) hT, h.2⟩, ?_⟩
    intro l hl p hp
    obtain ⟨c, h1, h2⟩ := h.2 d l hl
    have hc := (h2 p hp).1
    unfold Validator.cleanupDue PRACK_CLEANUP_INTERVAL at hdue
    rw [h1] at hdue
    simp only [decide_eq_true_eq] at hdue
    omega

theorem mark_same {r : Nat} {p : Pending} : ∀ {l : List Pending}, p ∈ markFirst r l → ∃ p' ∈ l, p'.createdAt = p.createdAt ∧
      p'.rseq = p.rseq ∧ p'.cseq = p.cseq ∧ p'.method = p.method ∧ p'.code = p.code
  | [], h => by cases h
  | q :: l, h => by
    unfold markFirst at h
    split at h
    · rcases List.mem_cons.1 h with rfl | h
      · exact ⟨q, List.mem_cons_self .., rfl, rfl, rfl, rfl, rfl⟩
      · exact ⟨p, List.mem_cons_of_mem _ h, rfl, rfl, rfl, rfl, rfl⟩
    · rcases List.mem_cons.1 h with rfl | h
      · exact ⟨p, List.mem_cons_self .., rfl, rfl, rfl, rfl, rfl⟩
      · obtain ⟨p', hp', e⟩ := mark_same h
        exact ⟨p', List.mem_cons_of_mem _ hp', e⟩

theorem cleanup_some (s : Validator) (d : Str) (now : Nat) : ∃ c, (s.cleanup d now).lastCleanup.get d = some c := by
  unfold Validator.cleanup
  split
  · exact ⟨now, Tbl.get_insert_self ..⟩
  · rename_i hdue
    unfold Validator.cleanupDue at hdue
    cases hg : s.lastCleanup.get d with
    | none => rw [hg] at hdue; simp at hdue
    | some c => exact ⟨c, rfl⟩

theorem aged_later {R : POp → Prop} {T T' : Nat} {s : Validator} (h : Aged R T s) (hT : T ≤ T') : Aged R T' s :=
  ⟨fun d c hc => Nat.le_trans (h.1 d c hc) hT, h.2⟩

theorem aged_step {R : POp → Prop} {T T' : Nat} {s : Validator} (h : Aged R T s) (o : POp) (hR : R o)
    (hT : ∀ t, timeOf o = some t → T ≤ t ∧ t ≤ T') (hT' : T ≤ T') : Aged R T' (s.step o) := by
  cases o with
  | register d now rs cs m code =>
    obtain ⟨hT, hle⟩ := hT now rfl
    have hc := (aged_cleanup h d now hT).1
    refine aged_later ?_ hle
    show Aged R now { s.cleanup d now with pending := pushAtom (s.cleanup d now).pending d (Pending.mk rs cs m code false now) }
    refine ⟨hc.1, ?_⟩
    intro d' l hl
    simp only [pushAtom] at hl
    by_cases e : d' = d
    · subst e
      rw [Tbl.get_insert_self] at hl
      simp only [Option.some.injEq] at hl
      obtain ⟨c, hcl⟩ := cleanup_some s d' now
      have hcn := hc.1 d' c hcl
      refine ⟨c, hcl, fun p hp => ?_⟩
      rw [← hl] at hp
      rcases List.mem_append.1 hp with hp | hp
      · cases hg : (s.cleanup d' now).pending.get d' with
        | none => rw [hg] at hp; simp at hp
        | some l0 =>
          obtain ⟨c', g1, g2⟩ := hc.2 d' l0 hg
          rw [hcl] at g1
          cases g1
          apply g2
          rw [hg] at hp
          simp only at hp
          split at hp
          · exact List.mem_of_mem_drop hp
          · exact hp
      · simp only [List.mem_cons, List.not_mem_nil, or_false] at hp
        subst hp
        exact ⟨by simp only; omega, hR⟩
    · rw [Tbl.get_insert_ne _ _ e] at hl
      exact hc.2 d' l hl
  | prack d now hs =>
    obtain ⟨hT, hle⟩ := hT now rfl
    have hc := (aged_cleanup h d now hT).1
    refine aged_later ?_ hle
    show Aged R now (s.prack d now hs).2
    unfold Validator.prack
    simp only
    split
    · exact hc
    · split
      · exact hc
      · rename_i r hr
        refine aged_sub hc _ ?_
        intro d' l hl
        cases hres : (checkAtom (s.cleanup d now).pending d r).1 with
        | error e =>
          rw [check_error hres] at hl
          exact ⟨l, hl, fun p hp => ⟨p, hp, rfl, rfl, rfl, rfl, rfl⟩⟩
        | ok r' =>
          obtain ⟨_, l0, _, g1, _, _, _, _, g2⟩ := check_ok hres
          rw [g2] at hl
          by_cases e : d' = d
          · subst e
            rw [Tbl.get_insert_self] at hl
            cases hl
            exact ⟨l0, g1, fun p hp => mark_same hp⟩
          · rw [Tbl.get_insert_ne _ _ e] at hl
            exact ⟨l, hl, fun p hp => ⟨p, hp, rfl, rfl, rfl, rfl, rfl⟩⟩
  | getPending d now =>
    obtain ⟨hT, hle⟩ := hT now rfl
    exact aged_later (aged_cleanup h d now hT).1 hle
  | removeDialog d =>
    refine aged_later ⟨?_, ?_⟩ hT'
    · intro d' c hc
      simp only [Validator.step] at hc
      by_cases e : d' = d
      · subst e; rw [Tbl.get_remove_self] at hc; cases hc
      · rw [Tbl.get_remove_ne _ e] at hc; exact h.1 d' c hc
    · intro d' l hl
      simp only [Validator.step] at hl ⊢
      by_cases e : d' = d
      · subst e; rw [Tbl.get_remove_self] at hl; cases hl
      · rw [Tbl.get_remove_ne _ e] at hl ⊢; exact h.2 d' l hl
  | removePracked d rseq =>
    refine aged_later ?_ hT'
    refine aged_sub h _ ?_
    intro d' l hl
    unfold removePracked at hl
    obtain ⟨l', h1, h2, _⟩ := update_sub _ _ _ (fun l p hp => (List.mem_filter.1 hp).1) d' l hl
    exact ⟨l', h1, fun p hp => ⟨p, h2 p hp, rfl, rfl, rfl, rfl, rfl⟩⟩

theorem aged_run {R : POp → Prop} : ∀ (ops : List POp) (T now : Nat) (s : Validator), Aged R T s → (∀ o ∈ ops, R o) →
    (T :: (ops.filterMap timeOf ++ [now])).Pairwise (· ≤ ·) → Aged R now (s.run ops)
  | [], T, now, s, h, _, hp => by
    simp only [List.filterMap_nil, List.nil_append, List.pairwise_cons] at hp
    exact aged_later h (hp.1 now (by simp))
  | o :: ops, T, now, s, h, hR, hp => by
    show Aged R now ((s.step o).run ops)
    cases ho : timeOf o with
    | none =>
      rw [List.filterMap_cons_none ho] at hp
      refine aged_run ops T now _ (aged_step h o (hR o (by simp)) ?_ (Nat.le_refl _)) (fun x hx => hR x (List.mem_cons_of_mem _ hx)) hp
      intro t ht; rw [ho] at ht; cases ht
    | some t =>
      rw [List.filterMap_cons_some ho] at hp
      have hp2 := (List.pairwise_cons.1 hp).2
      have hTt := (List.pairwise_cons.1 hp).1 t (by simp)
      refine aged_run ops t now _ (aged_step h o (hR o (by simp)) ?_ hTt) (fun x hx => hR x (List.mem_cons_of_mem _ hx)) hp2
      intro t' ht; rw [ho] at ht; cases ht; exact ⟨hTt, Nat.le_refl _⟩

/-- **C20.** Unacknowledged responses are forgotten: in a history in the order of time, a response listed as pending was
registered for this dialog less than 600 s ago (they expire after 300 s, and are looked through every 300 s). -/
theorem C20_forgets (ops : List POp) (d : Str) (now : Nat) (hord : (ops.filterMap timeOf ++ [now]).Pairwise (· ≤ ·)) :
    ∀ x ∈ ((Validator.empty.run ops).getPending d now).1, ∃ t c m, .register d t x.1 c m x.2 ∈ ops ∧ now < t + 600 * 10 ^ 9 := by
  intro x hx
  have h0 : Aged (· ∈ ops) 0 Validator.empty := ⟨fun d c h => by (cases h), fun d l h => by (cases h)⟩
  have h1 := aged_run ops 0 now _ h0 (fun o ho => ho) (List.pairwise_cons.2 ⟨fun _ _ => Nat.zero_le _, hord⟩)
  obtain ⟨h2, h3⟩ := aged_cleanup h1 d now (Nat.le_refl _)
  unfold Validator.getPending at hx
  simp only at hx
  split at hx
  · cases hx
  · rename_i l hl
    obtain ⟨p, hp, rfl⟩ := List.mem_map.1 hx
    have hp := (List.mem_filter.1 hp).1
    obtain ⟨c, _, h4⟩ := h2.2 d l hl
    exact ⟨p.createdAt, p.cseq, p.method, (h4 p hp).2, h3 l hl p hp⟩

/-- A response from 599 s ago is still listed. -/
example : ((Validator.empty.run [.register "d".toList 0 7 1 .invite 183, .getPending "d".toList (299 * 10 ^ 9),
      .register "d".toList (299 * 10 ^ 9) 8 1 .invite 183, .getPending "d".toList (301 * 10 ^ 9),
      .getPending "d".toList (598 * 10 ^ 9)]).getPending "d".toList (600 * 10 ^ 9)).1 = [(8, 183)] := by decide +kernel

/-! ## Acknowledgements are remembered -/

/-- The operation names the dialog, other than to remove something. -/
def Spec.Touches (d : Str) : POp → Prop
  | .register d' _ _ _ _ _ => d' = d
  | .prack d' _ _ => d' = d
  | .getPending d' _ => d' = d
  | _ => False

/-- The operation comes less than 300 s after `t0`, does not use the RSeq again in the dialog and does not remove the
dialog or this response. -/
def Spec.Keeps (d : Str) (t0 rseq : Nat) : POp → Prop
  | .register d' now r _ _ _ => now < t0 + 300 * 10 ^ 9 ∧ ¬ (d' = d ∧ r = rseq)
  | .prack _ now _ => now < t0 + 300 * 10 ^ 9
  | .getPending _ now => now < t0 + 300 * 10 ^ 9
  | .removeDialog d' => d' ≠ d
  | .removePracked d' r => ¬ (d' = d ∧ r = rseq)

theorem cleanup_other (s : Validator) {d d' : Str} (e : d ≠ d') (now : Nat) :
    (s.cleanup d' now).pending.get d = s.pending.get d ∧ (s.cleanup d' now).lastCleanup.get d = s.lastCleanup.get d := by
  unfold Validator.cleanup
  split
  · exact ⟨Tbl.get_update_ne _ _ e, Tbl.get_insert_ne _ _ e⟩
  · exact ⟨rfl, rfl⟩

theorem check_other (t : Tbl Str (List Pending)) {d d' : Str} (e : d ≠ d') (r : RAck) : (checkAtom t d' r).2.get d = t.get d := by
  cases hres : (checkAtom t d' r).1 with
  | error er => rw [check_error hres]
  | ok r' =>
    obtain ⟨_, l0, _, g1, _, _, _, _, g2⟩ := check_ok hres
    rw [g2, Tbl.get_insert_ne _ _ e]

theorem prack_state (s : Validator) (d : Str) (now : Nat) (hs : Headers) :
    (s.prack d now hs).2 = s.cleanup d now ∨
      ∃ r, (s.prack d now hs).2 = { s.cleanup d now with pending := (checkAtom (s.cleanup d now).pending d r).2 } := by
  unfold Validator.prack
  simp only
  split
  · exact .inl rfl
  · split
    · exact .inl rfl
    · exact .inr ⟨_, rfl⟩

/-- Untouched dialogs have no entry. -/
theorem untouched_run {d : Str} : ∀ (ops : List POp) (s : Validator), (∀ o ∈ ops, ¬ Touches d o) →
    s.pending.get d = none ∧ s.lastCleanup.get d = none →
    (s.run ops).pending.get d = none ∧ (s.run ops).lastCleanup.get d = none
  | [], _, _, h => h
  | o :: ops, s, ht, h => by
    refine untouched_run ops (s.step o) (fun x hx => ht x (List.mem_cons_of_mem _ hx)) ?_
    have hto := ht o List.mem_cons_self
    cases o with
    | register d' now r c m code =>
      have e : d ≠ d' := fun e => hto e.symm
      obtain ⟨h1, h2⟩ := cleanup_other s e now
      exact ⟨by simp only [Validator.step, Validator.register, pushAtom]; rw [Tbl.get_insert_ne _ _ e, h1]; exact h.1,
        by simp only [Validator.step, Validator.register]; rw [h2]; exact h.2⟩
    | prack d' now hs =>
      have e : d ≠ d' := fun e => hto e.symm
      obtain ⟨h1, h2⟩ := cleanup_other s e now
      rcases prack_state s d' now hs with x | ⟨r, x⟩
      · exact ⟨by simp only [Validator.step]; rw [x, h1]; exact h.1, by simp only [Validator.step]; rw [x, h2]; exact h.2⟩
      · refine ⟨?_, by simp only [Validator.step]; rw [x]; simp only; rw [h2]; exact h.2⟩
        simp only [Validator.step]; rw [x]; simp only; rw [check_other _ e, h1]; exact h.1
    | getPending d' now =>
      have e : d ≠ d' := fun e => hto e.symm
      obtain ⟨h1, h2⟩ := cleanup_other s e now
      exact ⟨h1.trans h.1, h2.trans h.2⟩
    | removeDialog d' =>
      simp only [Validator.step]
      by_cases e : d = d'
      · subst e; exact ⟨Tbl.get_remove_self _ _, Tbl.get_remove_self _ _⟩
      · rw [Tbl.get_remove_ne _ e, Tbl.get_remove_ne _ e]; exact h
    | removePracked d' r =>
      simp only [Validator.step, removePracked]
      by_cases e : d = d'
      · subst e; rw [Tbl.get_update_self, h.1]; exact ⟨rfl, h.2⟩
      · rw [Tbl.get_update_ne _ _ e]; exact h

/-- The response is in the table, acknowledged or not, and its dialog was last looked through at `t0`. -/
def Held (s : Validator) (d : Str) (p : Pending) (t0 : Nat) (pf : Bool) (k : Nat) : Prop :=
  Waits s.pending d { p with pracked := pf } k ∧ s.lastCleanup.get d = some t0

theorem held_cleanup {s : Validator} {d : Str} {p : Pending} {t0 k : Nat} {pf : Bool} (h : Held s d p t0 pf k) (d' : Str)
    {now : Nat} (hn : now < t0 + 300 * 10 ^ 9) : Held (s.cleanup d' now) d p t0 pf k := by
  by_cases e : d = d'
  · subst e
    have : s.cleanup d now = s := by
      unfold Validator.cleanup Validator.cleanupDue PRACK_CLEANUP_INTERVAL
      rw [h.2, if_neg]
      rw [decide_eq_true_eq]
      omega
    rw [this]; exact h
  · obtain ⟨h1, h2⟩ := cleanup_other s e now
    obtain ⟨⟨a, b, g1, g2, g3, g4⟩, g5⟩ := h
    exact ⟨⟨a, b, by rw [h1]; exact g1, g2, g3, g4⟩, by rw [h2]; exact g5⟩

theorem markFirst_mine {a b : List Pending} {p : Pending} (h : ∀ q ∈ a, q.rseq ≠ p.rseq) :
    markFirst p.rseq (a ++ p :: b) = a ++ { p with pracked := true } :: b := by
  induction a with
  | nil => simp [markFirst]
  | cons x a ih =>
    simp only [List.cons_append]
    rw [markFirst, if_neg (h x (by simp)), ih (fun q hq => h q (List.mem_cons_of_mem _ hq))]

theorem held_check {s : Validator} {d : Str} {p : Pending} {t0 k : Nat} {pf : Bool} (h : Held s d p t0 pf k) (d' : Str)
    (r : RAck) : ∃ pf', Held { s with pending := (checkAtom s.pending d' r).2 } d p t0 pf' k ∧ (pf = true → pf' = true) := by
  by_cases hr : d' = d ∧ r = RAck.mk p.rseq p.cseq p.method
  · obtain ⟨rfl, rfl⟩ := hr
    cases hc : (checkAtom s.pending d' (RAck.mk p.rseq p.cseq p.method)).1 with
    | error e => rw [check_error hc]; exact ⟨pf, h, fun x => x⟩
    | ok r' =>
      obtain ⟨_, l, q, hl, hq, h1, h2, h3, he⟩ := check_ok hc
      obtain ⟨⟨a, b, g1, g2, g3, g4⟩, g5⟩ := h
      refine ⟨true, ⟨⟨a, b, ?_, g2, g3, by simpa using g4⟩, g5⟩, fun _ => rfl⟩
      rw [g1] at hl
      cases hl
      simp only [he, Tbl.get_insert_self]
      have := markFirst_mine (b := b) (p := { p with pracked := pf }) g2
      simp only at this
      rw [this]
  · exact ⟨pf, ⟨waits_check h.1 d' r hr, h.2⟩, fun x => x⟩

theorem held_run {d : Str} {p : Pending} {t0 : Nat} : ∀ (ops : List POp) (s : Validator) (pf : Bool) (k : Nat),
    Held s d p t0 pf k → k + regsOf d ops ≤ 9 → (∀ o ∈ ops, Keeps d t0 p.rseq o) →
    ∃ pf', Held (s.run ops) d p t0 pf' (k + regsOf d ops) ∧ (pf = true → pf' = true)
  | [], s, pf, k, h, _, _ => ⟨pf, h, fun x => x⟩
  | o :: ops, s, pf, k, h, hk, ho => by
    have hko := ho o List.mem_cons_self
    have hrest := fun x hx => ho x (List.mem_cons_of_mem o hx)
    rw [regsOf_cons] at hk ⊢
    have go : ∀ (j : Nat), j ≤ 1 → k + (regsOf d ops + j) ≤ 9 →
        (∃ pf', Held (s.step o) d p t0 pf' (k + j) ∧ (pf = true → pf' = true)) →
        ∃ pf', Held (s.run (o :: ops)) d p t0 pf' (k + (regsOf d ops + j)) ∧ (pf = true → pf' = true) := by
      rintro j _ hj ⟨pf', h1, h2⟩
      obtain ⟨pf'', h3, h4⟩ := held_run ops (s.step o) pf' (k + j) h1 (by omega) hrest
      refine ⟨pf'', ?_, fun x => h4 (h2 x)⟩
      have : k + j + regsOf d ops = k + (regsOf d ops + j) := by omega
      rw [← this]; exact h3
    cases o with
    | register d' now r c m code =>
      have hc := held_cleanup h d' hko.1
      by_cases e : d' = d
      · subst e
        simp only [if_pos] at hk ⊢
        exact go 1 (Nat.le_refl _) hk ⟨pf, ⟨waits_push hc.1 (by omega) _, hc.2⟩, fun x => x⟩
      · simp only [if_neg e] at hk ⊢
        exact go 0 (by omega) hk ⟨pf, ⟨waits_insert_other hc.1 (fun x => e x.symm) _, hc.2⟩, fun x => x⟩
    | prack d' now hs =>
      have hc := held_cleanup h d' hko
      refine go 0 (by omega) hk ?_
      show ∃ pf', Held (s.prack d' now hs).2 d p t0 pf' k ∧ _
      rcases prack_state s d' now hs with x | ⟨r, x⟩
      · rw [x]; exact ⟨pf, hc, fun x => x⟩
      · rw [x]; exact held_check hc d' r
    | getPending d' now => exact go 0 (by omega) hk ⟨pf, held_cleanup h d' hko, fun x => x⟩
    | removeDialog d' =>
      refine go 0 (by omega) hk ⟨pf, ⟨?_, ?_⟩, fun x => x⟩
      · obtain ⟨⟨a, b, g1, g2, g3, g4⟩, _⟩ := h
        exact ⟨a, b, by simp only [Validator.step]; rw [Tbl.get_remove_ne _ (fun e => hko e.symm)]; exact g1, g2, g3, g4⟩
      · simp only [Validator.step]; rw [Tbl.get_remove_ne _ (fun e => hko e.symm)]; exact h.2
    | removePracked d' r =>
      refine go 0 (by omega) hk ⟨pf, ⟨?_, h.2⟩, fun x => x⟩
      simp only [Validator.step, removePracked]
      by_cases e : d = d'
      · subst e
        refine waits_update h.1 _ _ ?_
        have : p.rseq ≠ r := fun x => hko ⟨rfl, x.symm⟩
        simp [this]
      · obtain ⟨⟨a, b, g1, g2, g3, g4⟩, _⟩ := h
        exact ⟨a, b, by rw [Tbl.get_update_ne _ _ e]; exact g1, g2, g3, g4⟩

theorem regsOf_append (d : Str) (a b : List POp) : regsOf d (a ++ b) = regsOf d a + regsOf d b := by
  induction a with
  | nil => simp [regsOf, Registered]
  | cons o a ih => rw [List.cons_append, regsOf_cons, regsOf_cons, ih]; omega

/-- **C83 (partial).** Once the first reliable response of a dialog is acknowledged, it counts as acknowledged, so that it is
not sent again, for 300 s after it was registered: longer than the retransmissions last.  Missing: later responses of the
dialog, whose acknowledgement may be forgotten at once (`C83_forgotten`). -/
theorem C83_remembered_partial (pre mid more : List POp) (d : Str) (t0 now rseq cseq code : Nat) (m : Method) (hs : Headers)
    (r : RAck) (s' : Validator) (hpre : ∀ o ∈ pre, ¬ Touches d o)
    (hmid : ∀ o ∈ mid, Keeps d t0 rseq o) (hmore : ∀ o ∈ more, Keeps d t0 rseq o) (hnow : now < t0 + 300 * 10 ^ 9)
    (hfew : regsOf d mid + regsOf d more < 10)
    (hack : (((Validator.empty.run pre).register d t0 rseq cseq m code).run mid).prack d now hs = (.ok r, s'))
    (hr : r.rseq = rseq) : (s'.run more).isPracked d rseq = true := by
  obtain ⟨u1, u2⟩ := untouched_run pre Validator.empty hpre ⟨rfl, rfl⟩
  have h0 : Held ((Validator.empty.run pre).register d t0 rseq cseq m code) d (Pending.mk rseq cseq m code false t0) t0 false 0 := by
    have hcl : (Validator.empty.run pre).cleanup d t0 =
        { pending := retainAtom (Validator.empty.run pre).pending d t0, lastCleanup := (Validator.empty.run pre).lastCleanup.insert d t0 } := by
      unfold Validator.cleanup Validator.cleanupDue
      rw [u2]; rfl
    have hg : (retainAtom (Validator.empty.run pre).pending d t0).get d = none := by
      unfold retainAtom
      rw [Tbl.get_update_self, u1]; rfl
    refine ⟨⟨[], [], ?_, by simp, by simp, by simp⟩, ?_⟩
    · simp only [Validator.register, hcl, pushAtom, hg]
      rw [Tbl.get_insert_self]
      rfl
    · simp only [Validator.register, hcl, Tbl.get_insert_self]
  obtain ⟨pf, h1, _⟩ := held_run mid _ false 0 h0 (by omega) hmid
  have hc := held_cleanup h1 d hnow
  have hacked := C83_acked _ _ _ _ _ _ hack
  obtain ⟨_, _, hs'⟩ := prack_ok hack
  obtain ⟨pf2, h2, _⟩ := held_check hc d r
  rw [← hs'] at h2
  have read : ∀ {s : Validator} {b : Bool} {k : Nat}, Held s d (Pending.mk rseq cseq m code false t0) t0 b k → s.isPracked d rseq = b := by
    rintro s b k ⟨⟨a, c, g1, g2, _, _⟩, _⟩
    unfold Validator.isPracked
    rw [g1]
    have := find_waits (b := c) g2
    simp only at this ⊢
    rw [this]
  rw [hr, read h2] at hacked
  subst hacked
  obtain ⟨pf3, h3, h4⟩ := held_run more _ true _ h2 (by omega) hmore
  rw [read h3, h4 rfl]

example : ((Validator.empty.register "d".toList 0 1 1 .invite 180).prack "d".toList 5 (rackH "1 1 INVITE")).1 = .ok (RAck.mk 1 1 .invite) ∧
    ((((Validator.empty.register "d".toList 0 1 1 .invite 180).prack "d".toList 5 (rackH "1 1 INVITE")).2).run
      [.getPending "d".toList (299 * 10 ^ 9)]).isPracked "d".toList 1 = true := by decide +kernel

/-! ## The status of a refused PRACK -/

/-- **C84.** A PRACK of this dialog without an RAck, or with one that is not three words, is answered with 400. -/
theorem C84_no_rack_400 (s : Validator) (d : DialogId) (now : Nat) (hs : Headers) (ha : AsciiHeaders hs)
    (hn : Names hs d.callId d.remoteTag d.localTag)
    (h : Absent hs "RAck" ∨ ∃ v ws, First hs "RAck" v ∧ Words v ws ∧ ws.length ≠ 3) :
    ∃ s', handlePrack s d now hs = .done (some 400, s') := by
  obtain ⟨b, h1, h2⟩ := validate_ascii ha d
  have hb := h2.2 hn
  subst hb
  unfold handlePrack
  rw [h1]
  simp only
  unfold Validator.prack
  simp only
  rcases h with h | ⟨v, ws, h, hw, hl⟩
  · rw [(absent_iff _ _).1 h]
    exact ⟨_, rfl⟩
  · rw [(first_iff _ _ _).1 h]
    have : RAck.parse v = .error .format := by
      unfold RAck.parse
      rw [(words_iff _ _).1 hw]
      split
      · simp at hl
      · rfl
    simp only [this]
    exact ⟨_, rfl⟩

end Siphon.Dlg
