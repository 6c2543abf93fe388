import Verif.Dialog.PropsPrack
/-!
# C21, C83, C84: RSeq numbers, retransmission of reliable responses, the answer to a PRACK
-/
set_option linter.unusedSimpArgs false
namespace Siphon.Dlg
open TextSpec HdrSpec Spec

/-! ## C21: RSeq numbers -/

/-- **C21.** The first number of a dialog is in the range of RFC 3262, whatever the random bits. -/
theorem C21_first (d : DialogId) (t : Tbl DialogId Nat) (n : Nat) (h : t.get d = none) :
    1 ≤ (nextRSeq t d n).1 ∧ (nextRSeq t d n).1 ≤ 2 ^ 31 - 1 := by
  unfold nextRSeq
  rw [h]
  simp only [initialRSeq]
  have : n % 2 ^ 31 < 2 ^ 31 := Nat.mod_lt _ (by decide)
  constructor
  · exact Nat.le_max_right _ _
  · exact Nat.max_le.2 ⟨by omega, by decide⟩

theorem given_from {ops : List ROp} {t : Tbl DialogId Nat} {d : DialogId} {ns : List Nat} (h : Given t ops d ns) :
    ∀ r, (∀ o ∈ ops, o ≠ .remove d) → t.get d = some r → r + ns.length < 2 ^ 32 → ns = List.range' (r + 1) ns.length := by
  induction h with
  | nil => intros; rfl
  | @mine t d n r' t' ops ns h1 h2 ih =>
    intro r hno hg hlen
    simp only [List.length_cons] at hlen
    unfold nextRSeq at h1
    rw [hg] at h1
    simp only [if_pos (show r < MAX_U32 by unfold MAX_U32; omega), Prod.mk.injEq] at h1
    obtain ⟨e, e'⟩ := h1
    subst e
    have := ih (r + 1) (fun o ho => hno o (List.mem_cons_of_mem _ ho)) (by rw [← e']; exact Tbl.get_insert_self _ _ _) (by omega)
    rw [List.length_cons, List.range'_succ, ← this]
  | @other t d o ops ns h1 h2 ih =>
    intro r hno hg hlen
    refine ih r (fun x hx => hno x (List.mem_cons_of_mem _ hx)) ?_ hlen
    cases o with
    | next d' n =>
      have : d ≠ d' := fun e => h1 n (by rw [e])
      simp only [rstep, nextRSeq]
      rw [Tbl.get_insert_ne _ _ this]; exact hg
    | remove d' =>
      have : d ≠ d' := fun e => hno _ List.mem_cons_self (by rw [e])
      simp only [rstep]
      rw [Tbl.get_remove_ne _ this]; exact hg

theorem given_first {d : DialogId} {ops : List ROp} {t : Tbl DialogId Nat} {ns : List Nat} (h : Given t ops d ns) :
    t.get d = none → (∀ o ∈ ops, o ≠ .remove d) → ns ≠ [] → ∃ first, 1 ≤ first ∧ first ≤ 2 ^ 31 - 1 ∧
        (first + ns.length ≤ 2 ^ 32 → ns = List.range' first ns.length) := by
  induction h with
  | nil => intro _ _ h; exact absurd rfl h
  | @mine t d n r' t' ops ns h1 h2 ih =>
    intro hg hr _
    have hf := C21_first d t n hg
    rw [h1] at hf
    refine ⟨r', hf.1, hf.2, ?_⟩
    intro hlen
    simp only [List.length_cons] at hlen
    have e : t'.get d = some r' := by
      have := congrArg Prod.snd h1
      simp only at this
      have h1' := congrArg Prod.fst h1
      simp only at h1'
      rw [← this, ← h1']
      exact Tbl.get_insert_self _ _ _
    have := given_from h2 r' (fun o ho => hr o (List.mem_cons_of_mem _ ho)) e (by omega)
    rw [List.length_cons, List.range'_succ, ← this]
  | @other t d o ops ns h1 h2 ih =>
    intro hg hr hne
    refine ih ?_ (fun x hx => hr x (List.mem_cons_of_mem _ hx)) hne
    cases o with
    | next d' n =>
      have : d ≠ d' := fun e => h1 n (by rw [e])
      simp only [rstep, nextRSeq]
      rw [Tbl.get_insert_ne _ _ this]; exact hg
    | remove d' =>
      have : d ≠ d' := fun e => hr _ List.mem_cons_self (by rw [e])
      simp only [rstep]
      rw [Tbl.get_remove_ne _ this]; exact hg

/-- **C21 (partial).** Until the dialog is removed, the numbers handed out for it, whatever happens for other dialogs,
start in the range of RFC 3262 and go up by one each, and they stay in that range for the first `2^31 - first` calls.
Missing: the numbers after those (`C21_out_of_range`). -/
theorem C21_consecutive_partial (ops : List ROp) (d : DialogId) (ns : List Nat) (h : Given [] ops d ns)
    (hr : ∀ o ∈ ops, o ≠ .remove d) (hne : ns ≠ []) :
    ∃ first, 1 ≤ first ∧ first ≤ 2 ^ 31 - 1 ∧ (first + ns.length ≤ 2 ^ 32 → ns = List.range' first ns.length) ∧
      (first + ns.length ≤ 2 ^ 31 → ∀ n ∈ ns, 1 ≤ n ∧ n ≤ 2 ^ 31 - 1) := by
  obtain ⟨f, h1, h2, h3⟩ := given_first h rfl hr hne
  refine ⟨f, h1, h2, h3, ?_⟩
  intro hlen n hn
  rw [h3 (by omega)] at hn
  have := List.mem_range'_1.1 hn
  omega

def dlg (c : String) : DialogId := { callId := c.toList, localTag := "l".toList, remoteTag := "r".toList }

example : Given [] [.next (dlg "a") 41, .next (dlg "b") 7, .next (dlg "a") 9] (dlg "a") [41, 42] :=
  .mine rfl (.other (by intro n e; injection e with e; exact absurd e (by decide)) (.mine rfl .nil))

/-- **C21, violated.** The number after 2^31 - 1 is out of range (the client of this project, like any other that follows
the RFC, refuses it), and at the end of the 32-bit range the number is repeated. -/
theorem C21_out_of_range (d : DialogId) : Given [] [.next d (2 ^ 31 - 1), .next d 0] d [2 ^ 31 - 1, 2 ^ 31] ∧
    ∀ t : Tbl DialogId Nat, t.get d = some (2 ^ 32 - 1) → (nextRSeq t d 0).1 = 2 ^ 32 - 1 := by
  constructor
  · have h1 : nextRSeq [] d (2 ^ 31 - 1) = (2 ^ 31 - 1, (Tbl.insert ([] : Tbl DialogId Nat) d (2 ^ 31 - 1))) := rfl
    refine .mine h1 (.mine (t' := (nextRSeq (Tbl.insert ([] : Tbl DialogId Nat) d (2 ^ 31 - 1)) d 0).2) ?_ .nil)
    unfold nextRSeq
    rw [Tbl.get_insert_self]
    rfl
  · intro t h
    unfold nextRSeq
    rw [h]
    rfl

/-! ## C83: retransmission of the reliable response -/

/-- The times, in milliseconds, at which an unacknowledged response is sent again. -/
def schedule : List Nat := [500, 1500, 3500, 7500, 11500, 15500, 19500, 23500, 27500, 31500, 35500]

/-- **C83.** The response is sent again on the schedule, up to and not including the first time at which it is found
acknowledged. -/
theorem C83_schedule (acked : Nat → Bool) : retransmits acked = schedule.takeWhile (fun t => !acked t) := by
  have step : ∀ (t : Nat) (x y : List Nat), x = y → (if acked t then [] else t :: x) = (if !acked t then t :: y else []) := by
    intro t x y e; subst e; cases acked t <;> rfl
  unfold retransmits schedule
  simp only [List.takeWhile_cons, List.takeWhile_nil]
  iterate 10
    rw [retransmitLoop]
    simp only [Nat.reduceAdd, Nat.reduceMul, Nat.reduceLeDiff, if_false, Nat.min_def]
    refine step _ _ _ ?_
  rw [retransmitLoop]
  simp only [Nat.reduceAdd, Nat.reduceMul, Nat.reduceLeDiff, if_true]
  exact step _ _ _ rfl

/-- **C83.** The intervals double from 500 ms up to 4 s. -/
theorem C83_intervals : ∀ i, i + 1 < schedule.length → ∃ a b, schedule[i]? = some a ∧ schedule[i + 1]? = some b ∧
    b - a = Nat.min (2 ^ (i + 1) * 500) 4000 := by
  intro i hi
  have : i < 10 := by simp [schedule] at hi; omega
  rcases i with _ | _ | _ | _ | _ | _ | _ | _ | _ | _ | i
  all_goals first
    | omega
    | exact ⟨_, _, rfl, rfl, by decide⟩

/-- **C83.** The loop ends by itself: more rounds change nothing. -/
theorem C83_ends (acked : Nat → Bool) (n : Nat) : retransmitLoop acked (11 + n) 500 0 = retransmits acked := by
  unfold retransmits
  rw [Nat.add_comm]
  simp only [retransmitLoop]
  rfl

/-- **C83, violated.** RFC 3262 section 3 gives up after 64*T1 = 32 s; here the last retransmission is at 35.5 s, and nothing
happens after it: the INVITE is not rejected. -/
theorem C83_too_late : retransmits (fun _ => false) = schedule ∧ schedule.getLast? = some 35500 := by
  rw [C83_schedule]
  decide

/-- Every entry marked as acknowledged is in the log. -/
def Logged (t : Tbl Str (List Pending)) (l : List (Str × RAck)) : Prop :=
  ∀ d ps, t.get d = some ps → ∀ p ∈ ps, p.pracked = true → (d, RAck.mk p.rseq p.cseq p.method) ∈ l

theorem logged_update {t : Tbl Str (List Pending)} {l : List (Str × RAck)} (h : Logged t l) (d' : Str)
    (f : List Pending → List Pending) (hf : ∀ l, (f l).Sublist l) : Logged (t.update d' f) l := by
  intro d ps hl p hp
  by_cases e : d = d'
  · subst e
    rw [Tbl.get_update_self] at hl
    cases hg : t.get d with
    | none => rw [hg] at hl; cases hl
    | some l0 =>
      rw [hg] at hl
      simp only [Option.map_some, Option.some.injEq] at hl
      subst hl
      exact h _ _ hg p ((hf l0).subset hp)
  · rw [Tbl.get_update_ne t f e] at hl
    exact h _ _ hl p hp

theorem logged_cleanup {s : Validator} {l : List (Str × RAck)} (h : Logged s.pending l) (d' : Str) (now : Nat) :
    Logged (s.cleanup d' now).pending l := by
  unfold Validator.cleanup
  split
  · exact logged_update h _ _ (fun _ => List.filter_sublist)
  · exact h

theorem logged_push {t : Tbl Str (List Pending)} {l : List (Str × RAck)} (h : Logged t l) (d' : Str) (q : Pending)
    (hq : q.pracked = false) : Logged (pushAtom t d' q) l := by
  unfold pushAtom
  intro d ps hl p hp hpr
  by_cases e : d = d'
  · subst e
    rw [Tbl.get_insert_self] at hl
    injection hl with hl
    subst hl
    rcases List.mem_append.1 hp with hp | hp
    · cases hg : t.get d with
      | none => rw [hg] at hp; simp [MAX_PENDING_PRACK_PER_DIALOG] at hp
      | some l0 =>
        rw [hg] at hp
        simp only at hp
        split at hp
        · exact h _ _ hg p (List.mem_of_mem_drop hp) hpr
        · exact h _ _ hg p hp hpr
    · simp only [List.mem_singleton] at hp
      subst hp
      rw [hq] at hpr; cases hpr
  · rw [Tbl.get_insert_ne _ _ e] at hl
    exact h _ _ hl p hp hpr

theorem mem_mark {r : RAck} {q p : Pending} : ∀ {l : List Pending}, l.find? (fun p => decide (p.rseq = r.rseq)) = some p →
    q ∈ markFirst r.rseq l → q ∈ l ∨ q = { p with pracked := true }
  | x :: l, hf, h => by
    unfold markFirst at h
    split at h
    · rename_i hx
      rw [List.find?_cons_of_pos (by simpa using hx)] at hf
      injection hf with hf
      subst hf
      rcases List.mem_cons.1 h with rfl | h
      · exact Or.inr rfl
      · exact Or.inl (List.mem_cons_of_mem _ h)
    · rename_i hx
      rw [List.find?_cons_of_neg (by simpa using hx)] at hf
      rcases List.mem_cons.1 h with rfl | h
      · exact Or.inl List.mem_cons_self
      · rcases mem_mark hf h with h | h
        · exact Or.inl (List.mem_cons_of_mem _ h)
        · exact Or.inr h

theorem logged_acks {s : Validator} {ops : List POp} {l : List (Str × RAck)} (h : Acks s ops l) :
    ∀ l0, Logged s.pending l0 → Logged (s.run ops).pending (l0 ++ l) := by
  induction h with
  | nil => intro l0 h; simpa [Validator.run] using h
  | @take s s' d now hs r ops l h1 h2 ih =>
    intro l0 hl
    obtain ⟨_, h3, h4⟩ := prack_ok h1
    have hc := logged_cleanup hl d now
    have hs' : Logged s'.pending (l0 ++ [(d, r)]) := by
      obtain ⟨_, ps, p, g1, g2, g3, g4, g5, g6⟩ := check_ok h3
      rw [h4]
      simp only [g6]
      intro d' ps' hg q hq hqp
      by_cases e : d' = d
      · subst e
        rw [Tbl.get_insert_self] at hg
        injection hg with hg
        subst hg
        rcases mem_mark g2 hq with hq | rfl
        · exact List.mem_append_left _ (hc _ _ g1 q hq hqp)
        · have hrs : p.rseq = r.rseq := by simpa using List.find?_some g2
          apply List.mem_append_right
          simp only [List.mem_singleton, Prod.mk.injEq, true_and]
          rw [hrs, g3, g4]
      · rw [Tbl.get_insert_ne _ _ e] at hg
        exact List.mem_append_left _ (hc _ _ hg q hq hqp)
    have e : s.run (.prack d now hs :: ops) = s'.run ops := by simp [Validator.run, Validator.step, h1]
    rw [e]
    have := ih _ hs'
    rwa [List.append_assoc] at this
  | @refuse s s' d now hs er ops l h1 h2 ih =>
    intro l0 hl
    have e : s.run (.prack d now hs :: ops) = s'.run ops := by simp [Validator.run, Validator.step, h1]
    rw [e]
    exact ih _ (by rw [prack_error h1]; exact logged_cleanup hl d now)
  | @other s o ops l h1 h2 ih =>
    intro l0 hl
    refine ih l0 ?_
    cases o with
    | register d now r c m code => exact logged_push (logged_cleanup hl _ _) _ _ rfl
    | prack d now hs => exact absurd rfl (h1 d now hs)
    | getPending d now => exact logged_cleanup hl _ _
    | removeDialog d =>
      intro d' ps hg
      simp only [Validator.step] at hg
      by_cases e : d' = d
      · subst e; rw [Tbl.get_remove_self] at hg; cases hg
      · rw [Tbl.get_remove_ne _ e] at hg; exact hl _ _ hg
    | removePracked d rseq => exact logged_update hl _ _ (fun _ => List.filter_sublist)

/-- **C83.** A response is reported as acknowledged only if a PRACK for it was accepted. -/
theorem C83_only_acked (ops : List POp) (l : List (Str × RAck)) (h : Acks Validator.empty ops l) (d : Str) (rseq : Nat)
    (hp : (Validator.empty.run ops).isPracked d rseq = true) : ∃ c m, (d, RAck.mk rseq c m) ∈ l := by
  have hl := logged_acks h [] (by intro d ps h; cases h)
  unfold Validator.isPracked at hp
  split at hp
  · cases hp
  · rename_i ps hg
    split at hp
    · cases hp
    · rename_i p hf
      have hr : p.rseq = rseq := by simpa using List.find?_some hf
      subst hr
      have := hl _ _ hg p (List.mem_of_find?_eq_some hf) hp
      exact ⟨_, _, by simpa using this⟩

theorem find_mark (r : Nat) : ∀ (l : List Pending) (p : Pending), l.find? (fun p => decide (p.rseq = r)) = some p →
    (markFirst r l).find? (fun p => decide (p.rseq = r)) = some { p with pracked := true }
  | x :: l, p, h => by
    unfold markFirst
    split
    · rename_i hx
      rw [List.find?_cons_of_pos (by simpa using hx)] at h ⊢
      injection h with h; rw [h]
    · rename_i hx
      rw [List.find?_cons_of_neg (by simpa using hx)] at h ⊢
      exact find_mark r l p h

/-- **C83.** As soon as a PRACK is accepted, its response is reported as acknowledged. -/
theorem C83_acked (s s' : Validator) (d : Str) (now : Nat) (hs : Headers) (r : RAck)
    (h : s.prack d now hs = (.ok r, s')) : s'.isPracked d r.rseq = true := by
  obtain ⟨_, h3, h4⟩ := prack_ok h
  obtain ⟨_, ps, p, g1, g2, g3, g4, g5, g6⟩ := check_ok h3
  unfold Validator.isPracked
  rw [h4]
  simp only [g6, Tbl.get_insert_self, find_mark _ _ _ g2]

/-- **C83, violated.** A cleanup forgets that a response was acknowledged: here the response with RSeq 2 is sent at 299 s
and acknowledged at once, and when the next response is sent a second later the retransmission of the acknowledged one
goes on. -/
theorem C83_forgotten :
    let s := (Validator.empty.register "d".toList 0 1 1 .invite 180).register "d".toList (299 * 10 ^ 9) 2 1 .invite 183
    let s' := (s.prack "d".toList (299 * 10 ^ 9 + 1) (rackH "2 1 INVITE")).2
    s'.isPracked "d".toList 2 = true ∧
    (s'.register "d".toList (300 * 10 ^ 9) 3 1 .invite 183).isPracked "d".toList 2 = false := by decide +kernel

/-! ## C84: the answer to a PRACK -/

theorem validate_ascii {hs : Headers} (h : AsciiHeaders hs) (d : DialogId) :
    ∃ b, validateDialogRequest hs d = .done b ∧ (b = true ↔ Names hs d.callId d.remoteTag d.localTag) := by
  have hmem : ∀ n v, hs.get n = some v → ∀ c ∈ v, c.toNat < 128 := by
    intro n v hv
    unfold Headers.get at hv
    cases hg : hs.getHeader n with
    | none => rw [hg] at hv; cases hv
    | some x =>
      rw [hg] at hv
      simp only [Option.map_some, Option.some.injEq] at hv
      subst hv
      exact h x (by unfold Headers.getHeader at hg; exact List.mem_of_find?_eq_some hg)
  unfold validateDialogRequest
  cases hc : hs.get "Call-ID".toList with
  | none =>
    refine ⟨false, rfl, by simp, ?_⟩
    rintro ⟨h1, _⟩
    rw [first_iff, hc] at h1; cases h1
  | some c =>
    cases hf : hs.get "From".toList with
    | none =>
      refine ⟨false, rfl, by simp, ?_⟩
      rintro ⟨_, ⟨v, h1, _⟩, _⟩
      rw [first_iff, hf] at h1; cases h1
    | some f =>
      cases ht : hs.get "To".toList with
      | none =>
        refine ⟨false, rfl, by simp, ?_⟩
        rintro ⟨_, _, v, h1, _⟩
        rw [first_iff, ht] at h1; cases h1
      | some t =>
        simp only
        by_cases hcd : c = d.callId
        · rw [if_neg (by simp [hcd])]
          cases ef : extractTag f with
          | panic => exact absurd ef (extractTag_ascii (hmem _ _ hf))
          | done o =>
            cases o with
            | none =>
              refine ⟨false, rfl, by simp, ?_⟩
              rintro ⟨_, ⟨v, h1, h2⟩, _⟩
              rw [first_iff, hf] at h1
              injection h1 with h1
              subst h1
              exact absurd h2 (noTag_not (extractTag_none ef))
            | some ft =>
              simp only
              cases et : extractTag t with
              | panic => exact absurd et (extractTag_ascii (hmem _ _ ht))
              | done o2 =>
                refine ⟨_, rfl, ?_⟩
                simp only [Bool.and_eq_true, decide_eq_true_eq]
                constructor
                · rintro ⟨rfl, rfl⟩
                  exact ⟨(first_iff _ _ _).2 (by rw [hc, hcd]), ⟨f, (first_iff _ _ _).2 hf, extractTag_some ef⟩,
                    t, (first_iff _ _ _).2 ht, extractTag_some et⟩
                · rintro ⟨_, ⟨v, h1, h2⟩, v', h3, h4⟩
                  rw [first_iff, hf] at h1
                  rw [first_iff, ht] at h3
                  injection h1 with h1
                  injection h3 with h3
                  subst h1 h3
                  refine ⟨tagOf_unique (extractTag_some ef) h2, ?_⟩
                  cases o2 with
                  | none => exact absurd h4 (noTag_not (extractTag_none et))
                  | some tt => rw [tagOf_unique (extractTag_some et) h4]
        · rw [if_pos hcd]
          refine ⟨false, rfl, by simp, ?_⟩
          rintro ⟨h1, _⟩
          rw [first_iff, hc] at h1
          injection h1 with h1
          exact absurd h1 hcd

/-- **C84.** A PRACK is answered with 200 exactly if it belongs to the dialog and is accepted. -/
theorem C84_ok_iff (s : Validator) (d : DialogId) (now : Nat) (hs : Headers) (ha : AsciiHeaders hs) :
    (∃ s', handlePrack s d now hs = .done (some 200, s')) ↔
      Names hs d.callId d.remoteTag d.localTag ∧ ∃ r s', s.prack (dialogIdKey d) now hs = (.ok r, s') := by
  obtain ⟨b, h1, h2⟩ := validate_ascii ha d
  unfold handlePrack
  rw [h1]
  rw [← h2]
  cases b with
  | false => simp
  | true =>
    simp only
    cases hp : s.prack (dialogIdKey d) now hs with
    | mk res s1 =>
      cases res with
      | error e =>
        simp only [Run.done.injEq, Prod.mk.injEq, Option.some.injEq, true_and]
        constructor
        · rintro ⟨s', h, _⟩; cases e <;> cases h
        · rintro ⟨r, s', h, _⟩; cases h
      | ok r => simp

/-- **C84.** A PRACK of another dialog is not answered and changes nothing; a refused PRACK changes no more than
asking for the pending responses does. -/
theorem C84_harmless (s : Validator) (d : DialogId) (now : Nat) (hs : Headers) (ha : AsciiHeaders hs) :
    (¬ Names hs d.callId d.remoteTag d.localTag → handlePrack s d now hs = .done (none, s)) ∧
    (∀ c s', handlePrack s d now hs = .done (some c, s') → c ≠ 200 → s' = (s.getPending (dialogIdKey d) now).2) := by
  obtain ⟨b, h1, h2⟩ := validate_ascii ha d
  unfold handlePrack
  rw [h1]
  constructor
  · intro h
    cases b with
    | false => rfl
    | true => exact absurd (h2.1 rfl) h
  · intro c s' h hc
    cases b with
    | false => cases h
    | true =>
      simp only at h
      cases hp : s.prack (dialogIdKey d) now hs with
      | mk res s1 =>
        rw [hp] at h
        cases res with
        | error e =>
          simp only [Run.done.injEq, Prod.mk.injEq] at h
          rw [← h.2, prack_error hp]; rfl
        | ok r =>
          simp only [Run.done.injEq, Prod.mk.injEq, Option.some.injEq] at h
          exact absurd h.1.symm hc

theorem registered_mem {d : Str} : ∀ (ops : List POp), (∀ x ∈ Registered ops, x.1 ≠ d) →
    ∀ s : Validator, s.pending.get d = none → (s.run ops).pending.get d = none
  | [], _, s, h => h
  | o :: ops, hr, s, h => by
    have hu : ∀ (t : Tbl Str (List Pending)) d' f, t.get d = none → (t.update d' f).get d = none := by
      intro t d' f ht
      by_cases e : d = d'
      · subst e; rw [Tbl.get_update_self, ht]; rfl
      · rw [Tbl.get_update_ne t f e, ht]
    have hc : ∀ d' now, (s.cleanup d' now).pending.get d = none := by
      intro d' now
      unfold Validator.cleanup
      split
      · exact hu _ _ _ h
      · exact h
    refine registered_mem ops ?_ (s.step o) ?_
    · intro x hx
      refine hr x ?_
      cases o <;> simp [Registered, hx]
    · cases o with
      | register d' now r c m code =>
        have : d ≠ d' := fun e => hr (d', RAck.mk r c m) List.mem_cons_self e.symm
        simp only [Validator.step, Validator.register, pushAtom]
        rw [Tbl.get_insert_ne _ _ this]; exact hc _ _
      | prack d' now hs =>
        simp only [Validator.step]
        rcases prack_pending s d' now hs with e | ⟨r, e⟩
        · rw [e]; exact hc _ _
        · rw [e]
          cases hk : (checkAtom (s.cleanup d' now).pending d' r).1 with
          | error e => rw [check_error hk]; exact hc _ _
          | ok r' =>
            obtain ⟨_, ps, p, g1, _, _, _, _, g6⟩ := check_ok hk
            rw [g6]
            have : d ≠ d' := by
              intro e; subst e; rw [hc] at g1; cases g1
            rw [Tbl.get_insert_ne _ _ this]; exact hc _ _
      | getPending d' now => exact hc _ _
      | removeDialog d' =>
        simp only [Validator.step]
        by_cases e : d = d'
        · subst e; exact Tbl.get_remove_self _ _
        · rw [Tbl.get_remove_ne _ e]; exact h
      | removePracked d' rseq => exact hu _ _ _ h

/-- **C84 (partial).** For a dialog without reliable responses a PRACK with a proper RAck is answered with 481.  Missing:
the other PRACKs that match nothing (`C84_mismatch_400`) and those that cannot be read (`C84_garbled_481`). -/
theorem C84_nothing_partial (ops : List POp) (d : DialogId) (now : Nat) (hs : Headers) (ha : AsciiHeaders hs) (v : Str) (r : RAck)
    (hn : Names hs d.callId d.remoteTag d.localTag) (hv : First hs "RAck" v) (hr : RAckText v r)
    (hno : ∀ x ∈ Registered ops, x.1 ≠ dialogIdKey d) :
    ∃ s', handlePrack (Validator.empty.run ops) d now hs = .done (some 481, s') := by
  obtain ⟨b, h1, h2⟩ := validate_ascii ha d
  have hb := h2.2 hn
  subst hb
  have hv' := (first_iff _ _ _).1 hv
  have hav : ∀ c ∈ v, c.toNat < 128 := by
    unfold Headers.get at hv'
    cases hg : hs.getHeader "RAck".toList with
    | none => rw [hg] at hv'; cases hv'
    | some x =>
      rw [hg] at hv'
      simp only [Option.map_some, Option.some.injEq] at hv'
      subst hv'
      exact ha x (by unfold Headers.getHeader at hg; exact List.mem_of_find?_eq_some hg)
  have hp := (C20_read v hav r).2 hr
  have hnone := registered_mem ops hno Validator.empty rfl
  have hcl : ((Validator.empty.run ops).cleanup (dialogIdKey d) now).pending.get (dialogIdKey d) = none := by
    unfold Validator.cleanup
    split
    · simp only [retainAtom, Tbl.get_update_self, hnone]; rfl
    · exact hnone
  unfold handlePrack
  rw [h1]
  simp only
  have : (Validator.empty.run ops).prack (dialogIdKey d) now hs =
      (.error .noneForDialog, (Validator.empty.run ops).cleanup (dialogIdKey d) now) := by
    unfold Validator.prack
    simp only [hv', hp, checkAtom, hcl]
  rw [this]
  exact ⟨_, rfl⟩

def prackH (rack : String) : Headers := { inner := [{ name := "Call-ID".toList, value := "a".toList }, { name := "From".toList, value := "<sip:x>;tag=r".toList }, { name := "To".toList, value := "<sip:y>;tag=l".toList }, { name := "RAck".toList, value := rack.toList }] }

example : ∃ s', handlePrack Validator.empty (dlg "a") 0 (prackH "1 1 INVITE") = .done (some 481, s') := ⟨_, rfl⟩

example : ∃ s', handlePrack (Validator.empty.register (dialogIdKey (dlg "a")) 0 1 1 .invite 180) (dlg "a") 0
    (prackH "1 1 INVITE") = .done (some 200, s') := ⟨_, rfl⟩

/-- **C84, violated.** RFC 3262 section 3 wants 481 for a PRACK that matches no unacknowledged response; if the dialog
has others, the answer is 400. -/
theorem C84_mismatch_400 : ∃ s', handlePrack (Validator.empty.register (dialogIdKey (dlg "a")) 0 1 1 .invite 180) (dlg "a") 0
    (prackH "2 1 INVITE") = .done (some 400, s') := ⟨_, rfl⟩

/-- **C84, violated.** An RAck with a number or method that cannot be read is answered with 481, not 400. -/
theorem C84_garbled_481 : ∃ s', handlePrack (Validator.empty.register (dialogIdKey (dlg "a")) 0 1 1 .invite 180) (dlg "a") 0
    (prackH "one 1 INVITE") = .done (some 481, s') := ⟨_, rfl⟩

theorem append_colon {a a' b b' : Str} (hb : ':' ∉ b) (hb' : ':' ∉ b') (h : a ++ ':' :: b = a' ++ ':' :: b') :
    a = a' ∧ b = b' := by
  have h' := congrArg List.reverse h
  simp only [List.reverse_append, List.reverse_cons, List.append_assoc, List.singleton_append] at h'
  have e1 := splitOnce_append ':' b.reverse a.reverse (by simpa using hb)
  have e2 := splitOnce_append ':' b'.reverse a'.reverse (by simpa using hb')
  have : b.reverse ++ ':' :: a.reverse = b'.reverse ++ ':' :: a'.reverse := by simpa using h'
  rw [this, e2] at e1
  simp only [Option.some.injEq, Prod.mk.injEq, List.reverse_inj] at e1
  exact ⟨e1.2.symm, e1.1.symm⟩

/-- **C84.** The key under which the responses of a dialog are kept belongs to that dialog only, if tags contain no
colon (the grammar forbids it); Call-IDs may. -/
theorem C84_key (d d' : DialogId) (h1 : ':' ∉ d.localTag) (h2 : ':' ∉ d.remoteTag) (h1' : ':' ∉ d'.localTag)
    (h2' : ':' ∉ d'.remoteTag) (h : dialogIdKey d = dialogIdKey d') : d = d' := by
  unfold dialogIdKey at h
  obtain ⟨e1, e2⟩ := append_colon h2 h2' h
  obtain ⟨e3, e4⟩ := append_colon h1 h1' e1
  cases d; cases d'; simp_all

/-- The condition is needed: tags are not checked, and a peer chooses its own. -/
theorem C84_key_collides : ∃ d d' : DialogId, d ≠ d' ∧ dialogIdKey d = dialogIdKey d' :=
  ⟨DialogId.mk "a".toList "b".toList "c:d".toList, DialogId.mk "a:b".toList "c".toList "d".toList, by decide, by decide⟩

end Siphon.Dlg
