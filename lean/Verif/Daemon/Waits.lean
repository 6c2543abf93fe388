import Verif.Daemon.PropsCall
import Verif.Bridge.Deliver
import Verif.Proxy.PropsForward
set_option linter.unusedSimpArgs false
set_option linter.unusedVariables false
/-!
# Lemmas about pending INVITEs
-/
namespace Siphon.Daemon
open HdrSpec TextSpec
open Siphon.Dlg.Spec
open Siphon.Uas.Spec
open Siphon.Bridge.Spec (Copies Lines Fits Ascii)
open Siphon.Bridge (putAll answerTo keepDialog bracket noSuchCall GoodName putAll_ok)
open Siphon.Dlg (Dialog DialogId Mgr Validator copyHeader dialogIdKey first_iff absent_iff)
open Siphon.Uas (createResponse createOk acceptInvite)
open Spec

/-! ## Keys -/

theorem fromTag_iff (v t : Str) : fromTag v = some t ↔ FirstTag v t := by
  unfold fromTag FirstTag
  have ne : ";tag=".toList ≠ [] := by decide
  constructor
  · intro h
    cases hc : Uas.cutAt ";tag=".toList v with
    | none => rw [hc] at h; cases h
    | some p =>
      obtain ⟨a, rest⟩ := p
      rw [hc] at h
      simp only [Option.map_some, Option.some.injEq] at h
      obtain ⟨h1, h2⟩ := Uas.cutAt_some ne hc
      obtain ⟨q, qs, hq⟩ := Proxy.pieces_exists ';' rest
      have := Proxy.firstPiece_pieces _ _ _ _ hq
      rw [this] at h
      subst h
      exact ⟨a, rest, qs, h1, h2, hq⟩
  · rintro ⟨a, rest, ps, h1, h2, hp⟩
    cases hc : Uas.cutAt ";tag=".toList v with
    | none => exact absurd h1 ((Uas.cutAt_none ne).mp hc a rest)
    | some p =>
      obtain ⟨a', rest'⟩ := p
      obtain ⟨h3, h4⟩ := Uas.cutAt_some ne hc
      have e1 := h2 _ _ h3
      have e2 := h4 _ _ h1
      have : a = a' ∧ rest = rest' := by
        rw [h1] at h3
        rw [List.append_assoc, List.append_assoc] at h3
        have hl : a.length = a'.length := by omega
        obtain ⟨x, y⟩ := List.append_inj h3 hl
        exact ⟨x, List.append_cancel_left y⟩
      obtain ⟨rfl, rfl⟩ := this
      simp only [Option.map_some, Option.some.injEq]
      exact Proxy.firstPiece_pieces _ _ _ _ hp

theorem keyOf_iff (hs : Headers) (k : Str) : keyOf hs = some k ↔ ∃ cid num ft, Call hs cid num ft ∧ k = cid ++ ':' :: num ++ ':' :: ft := by
  unfold keyOf Call
  simp only [first_iff]
  constructor
  · intro h
    split at h
    · rename_i c s f hc hs' hf
      split at h
      · rename_i n ws t hw ht
        cases h
        exact ⟨c, n, t, ⟨hc, ⟨s, ws, hs', (words_iff _ _).mpr hw⟩, f, hf, (fromTag_iff _ _).mp ht⟩, rfl⟩
      · cases h
    · cases h
  · rintro ⟨cid, num, ft, ⟨h1, ⟨s, ws, h2, h3⟩, f, h4, h5⟩, rfl⟩
    rw [h1, h2, h4]
    simp only
    rw [(words_iff _ _).mp h3, (fromTag_iff _ _).mpr h5]

theorem call_unique {hs : Headers} {a b c a' b' c' : Str} (h : Call hs a b c) (h' : Call hs a' b' c') : a = a' ∧ b = b' ∧ c = c' := by
  unfold Call at h h'
  simp only [first_iff] at h h'
  obtain ⟨h1, ⟨s, ws, h2, h3⟩, f, h4, h5⟩ := h
  obtain ⟨g1, ⟨s', ws', g2, g3⟩, f', g4, g5⟩ := h'
  rw [h1] at g1
  rw [h2] at g2
  rw [h4] at g4
  cases g1; cases g2; cases g4
  rw [words_iff] at h3 g3
  rw [h3] at g3
  rw [← fromTag_iff] at h5 g5
  rw [h5] at g5
  cases g3; cases g5
  exact ⟨rfl, rfl, rfl⟩

theorem last_colon {a b x y : Str} (h : a ++ ':' :: x = b ++ ':' :: y) (hx : ':' ∉ x) (hy : ':' ∉ y) : a = b ∧ x = y := by
  have hr : x.reverse ++ ':' :: a.reverse = y.reverse ++ ':' :: b.reverse := by
    have := congrArg List.reverse h
    simpa using this
  have key : ∀ (p q r s : Str), ':' ∉ p → ':' ∉ r → p ++ ':' :: q = r ++ ':' :: s → p = r ∧ q = s := by
    intro p
    induction p with
    | nil =>
      intro q r s _ hr h
      cases r with
      | nil => simp at h; exact ⟨rfl, h⟩
      | cons c r => simp at h; exact absurd (by rw [h.1]; simp) hr
    | cons c p ih =>
      intro q r s hp hr h
      cases r with
      | nil => simp at h; exact absurd (by rw [h.1]; simp) hp
      | cons d r =>
        simp only [List.cons_append, List.cons.injEq] at h
        obtain ⟨h1, h2⟩ := ih q r s (fun hm => hp (by simp [hm])) (fun hm => hr (by simp [hm])) h.2
        exact ⟨by rw [h.1, h1], h2⟩
  obtain ⟨h1, h2⟩ := key _ _ _ _ (by simpa using hx) (by simpa using hy) hr
  exact ⟨List.reverse_inj.mp h2, List.reverse_inj.mp h1⟩

theorem key_inj {a b c a' b' c' : Str} (h : a ++ ':' :: b ++ ':' :: c = a' ++ ':' :: b' ++ ':' :: c') (hb : ':' ∉ b) (hb' : ':' ∉ b')
    (hc : ':' ∉ c) (hc' : ':' ∉ c') : a = a' ∧ b = b' ∧ c = c' := by
  obtain ⟨h1, h2⟩ := last_colon h hc hc'
  obtain ⟨h3, h4⟩ := last_colon h1 hb hb'
  exact ⟨h3, h4, h2⟩

/-! ## What a turn does -/

/-- The task has to do with the pending INVITE under this key. -/
def Touches (k : Str) : Task → Prop
  | .trying _ rq _ => keyOf rq.headers = some k
  | .ringing _ _ _ key => key = some k
  | .closing key => key = some k
  | .cancel rq => keyOf rq.headers = some k
  | .clearing k' => k' = k

theorem waitOf_key {txn now : Nat} {hs : Headers} {k : Str} {w : Wait} (h : waitOf txn now hs = some (k, w)) :
    keyOf hs = some k ∧ w.txn = txn ∧ hs.get "Via".toList = some w.via ∧ hs.get "From".toList = some w.from ∧ hs.get "To".toList = some w.to ∧
      hs.get "Call-ID".toList = some w.callId ∧ hs.get "CSeq".toList = some w.cseq ∧ w.born = now := by
  unfold waitOf at h
  split at h
  · rename_i h1 h2 h3 h4 h5 h6
    cases h
    exact ⟨h1, rfl, h2, h3, h4, h5, h6, rfl⟩
  · cases h

theorem waitOf_map {txn now : Nat} {hs : Headers} {k : Str} (h : (waitOf txn now hs).map (·.1) = some k) : keyOf hs = some k := by
  cases hw : waitOf txn now hs with
  | none => rw [hw] at h; cases h
  | some p =>
    obtain ⟨k', w⟩ := p
    rw [hw] at h
    cases h
    exact (waitOf_key hw).1

theorem retag_waits (st : St) (key : Option Str) (r : Response) {k : Str} (h : key ≠ some k) : (retag st key r).waits.get k = st.waits.get k := by
  unfold retag
  cases key with
  | none => rfl
  | some k' =>
    cases r.headers.get "To".toList with
    | none => rfl
    | some to =>
      simp only
      exact Tbl.get_update_ne _ _ (fun e => h (congrArg some e.symm))

/-- the task that stays after a ring, and the pending INVITEs -/
theorem ring_waits (c : Cfg) (st : St) (id txn : Nat) (rq : Request) (i : Info) (me : SipUri) (key : Option Str) :
    (∃ r, (ring c st id txn rq i me key).1.waits = (retag st key r).waits ∧
      (ring c st id txn rq i me key).1.tasks = st.tasks.insert id (.ringing txn rq me key)) ∨
    ((ring c st id txn rq i me key).1.waits = st.waits ∧ (ring c st id txn rq i me key).1.tasks = st.tasks) := by
  unfold ring
  split
  · exact .inr ⟨rfl, rfl⟩
  · rename_i r hr
    split
    · exact .inr ⟨rfl, rfl⟩
    · rename_i st' r' x hx
      refine .inl ⟨r', ?_, ?_⟩
      · have : st'.waits = st.waits := by
          split at hx
          · exact (reliable_tasks hx).2.2
          · cases hx; rfl
        simp only
        unfold retag
        split <;> simp only [this]
      · have : st'.tasks = st.tasks := by
          split at hx
          · exact (reliable_tasks hx).1
          · cases hx; rfl
        simp only
        rw [(retag_tasks st' key r').1, this]

theorem afterTrying_cases (c : Cfg) (st : St) (id txn : Nat) (rq : Request) (i : Info) (me : SipUri) :
    let key := (waitOf txn i.now rq.headers).map (·.1)
    let st₁ := keepWait st (waitOf txn i.now rq.headers)
    (∃ r, (afterTrying c st id txn rq i me).1.waits = (retag st₁ key r).waits ∧
      (afterTrying c st id txn rq i me).1.tasks = st.tasks.insert id (.ringing txn rq me key)) ∨
    ((afterTrying c st id txn rq i me).1.waits = st₁.waits ∧
      ((afterTrying c st id txn rq i me).1.tasks = st.tasks ∨ (afterTrying c st id txn rq i me).1.tasks = st.tasks.insert id (.closing key))) := by
  intro key st₁
  have ht : st₁.tasks = st.tasks := (keepWait_tasks _ _).1
  have hring : ∀ {X : St}, X = (ring c st₁ id txn rq i me key).1 →
      (∃ r, X.waits = (retag st₁ key r).waits ∧ X.tasks = st.tasks.insert id (.ringing txn rq me key)) ∨
      (X.waits = st₁.waits ∧ (X.tasks = st.tasks ∨ X.tasks = st.tasks.insert id (.closing key))) := by
    rintro X rfl
    rcases ring_waits c st₁ id txn rq i me key with ⟨r, h1, h2⟩ | ⟨h1, h2⟩
    · exact .inl ⟨r, h1, by rw [h2, ht]⟩
    · exact .inr ⟨h1, .inl (by rw [h2, ht])⟩
  unfold afterTrying
  simp only
  split
  · exact hring rfl
  · split
    · exact hring rfl
    · split
      · exact .inr ⟨rfl, .inl ht⟩
      · refine .inr ⟨rfl, .inr ?_⟩
        show Tbl.insert st₁.tasks id (.closing key) = _
        rw [ht]
      · exact hring rfl

theorem afterRinging_cases (c : Cfg) (st : St) (id txn : Nat) (rq : Request) (i : Info) (me : SipUri) (key : Option Str) :
    (afterRinging c st id txn rq i me key).1.waits = st.waits ∧
    ((afterRinging c st id txn rq i me key).1.tasks = st.tasks ∨
      (afterRinging c st id txn rq i me key).1.tasks = st.tasks.insert id (.closing key)) := by
  unfold afterRinging
  split
  · exact ⟨rfl, .inl rfl⟩
  · exact ⟨rfl, .inr rfl⟩
  · split
    · exact ⟨rfl, .inl rfl⟩
    · exact ⟨rfl, .inr rfl⟩
    · split
      · exact ⟨rfl, .inl rfl⟩
      · exact ⟨rfl, .inr rfl⟩

theorem afterCancel_cases (st : St) (id : Nat) (rq : Request) :
    (afterCancel st id rq).1.waits = st.waits ∧
    ((afterCancel st id rq).1.tasks = st.tasks ∨ ∃ k, keyOf rq.headers = some k ∧ (afterCancel st id rq).1.tasks = st.tasks.insert id (.clearing k)) := by
  unfold afterCancel
  split
  · exact ⟨rfl, .inl rfl⟩
  · rename_i k hk
    split
    · exact ⟨rfl, .inl rfl⟩
    · exact ⟨rfl, .inr ⟨k, hk, rfl⟩⟩

theorem keepWait_waits (st : St) {txn now : Nat} {hs : Headers} {k : Str} (h : keyOf hs ≠ some k) :
    (keepWait st (waitOf txn now hs)).waits.get k = st.waits.get k := by
  unfold keepWait
  split
  · rename_i k' w e
    exact Tbl.get_insert_ne _ _ (fun e' => h (by rw [e']; exact (waitOf_key e).1))
  · rfl

/-- A task that has nothing to do with a key leaves it alone, and goes on so. -/
theorem turn_key {c : Cfg} {st : St} {id : Nat} {i : Info} {t : Task} {k : Str} (ht : st.tasks.get id = some t) (hk : ¬ Touches k t) :
    (turn c st id i).1.waits.get k = st.waits.get k ∧ ∀ t', (turn c st id i).1.tasks.get id = some t' → ¬ Touches k t' := by
  have gone : ∀ t' : Task, (st.tasks.remove id).get id = some t' → ¬ Touches k t' := by
    intro t' h
    rw [Tbl.get_remove_self] at h
    cases h
  have put : ∀ (x : Task), ¬ Touches k x → ∀ t' : Task, ((st.tasks.remove id).insert id x).get id = some t' → ¬ Touches k t' := by
    intro x hx t' h
    rw [Tbl.get_insert_self] at h
    cases h
    exact hx
  unfold turn
  rw [ht]
  simp only
  cases t with
  | trying txn rq me =>
    have hk' : keyOf rq.headers ≠ some k := hk
    have hkey : (waitOf txn i.now rq.headers).map (·.1) ≠ some k := fun e => hk' (waitOf_map e)
    rcases afterTrying_cases c { st with tasks := st.tasks.remove id } id txn rq i me with ⟨r, h1, h2⟩ | ⟨h1, h2⟩
    · simp only at h1 h2 ⊢
      rw [h1, h2]
      exact ⟨by rw [retag_waits _ _ _ hkey, keepWait_waits _ hk'], put _ hkey⟩
    · simp only at h1 h2 ⊢
      rw [h1]
      refine ⟨by rw [keepWait_waits _ hk'], ?_⟩
      rcases h2 with h2 | h2 <;> rw [h2]
      · exact gone
      · exact put _ hkey
  | ringing txn rq me key =>
    obtain ⟨h1, h2⟩ := afterRinging_cases c { st with tasks := st.tasks.remove id } id txn rq i me key
    simp only at h1 h2 ⊢
    rw [h1]
    refine ⟨rfl, ?_⟩
    rcases h2 with h2 | h2 <;> rw [h2]
    · exact gone
    · exact put _ hk
  | closing key =>
    simp only
    unfold dropWait
    cases key with
    | none => exact ⟨rfl, gone⟩
    | some k' => exact ⟨Tbl.get_remove_ne _ (fun e => hk (by rw [e]; rfl)), gone⟩
  | cancel rq =>
    obtain ⟨h1, h2⟩ := afterCancel_cases { st with tasks := st.tasks.remove id } id rq
    simp only at h1 h2 ⊢
    rw [h1]
    refine ⟨rfl, ?_⟩
    rcases h2 with h2 | ⟨k', hk', h2⟩ <;> rw [h2]
    · exact gone
    · refine put _ (fun e => hk ?_)
      have e : k' = k := e
      rw [← e]
      exact hk'
  | clearing k' =>
    simp only
    exact ⟨Tbl.get_remove_ne _ (fun e => hk e.symm), gone⟩

theorem get_filter {K V : Type} [DecidableEq K] {p : K × V → Bool} : ∀ {t : Tbl K V} {k : K} {v : V}, t.get k = some v → p (k, v) = true →
    Tbl.get (t.filter p) k = some v
  | [], _, _, h, _ => by cases h
  | (k', v') :: t, k, v, h, hp => by
    rw [Tbl.get_cons] at h
    split at h
    · rename_i e
      cases h
      subst e
      rw [List.filter_cons, if_pos hp, Tbl.get_cons, if_pos rfl]
    · rename_i e
      rw [List.filter_cons]
      split
      · rw [Tbl.get_cons, if_neg e]
        exact get_filter h hp
      · exact get_filter h hp

/-! ## Keys that only some tasks have to do with -/

/-- A request that has nothing to do with the key. -/
def Ev.Away (k : Str) : Ev → Prop
  | .request _ rq _ => (rq.method = .invite ∨ rq.method = .cancel) → keyOf rq.headers ≠ some k
  | _ => True

/-- No task but those in `own` touches the key. -/
def Lone (k : Str) (own : List Nat) (st : St) : Prop := ∀ id t, id ∉ own → st.tasks.get id = some t → ¬ Touches k t

theorem lone_step {c : Cfg} {st : St} {k : Str} {own : List Nat} (hg : Good st) (h : Lone k own st) {e : Ev} (ha : e.Away k)
    (hown : ∀ n ∈ own, ∀ i, e ≠ .turn n i) : Lone k own (step c st e).1 := by
  cases e with
  | request txn rq i =>
    have hq : Quiet c txn rq st (dispatch c st txn rq i).1 := quiet_dispatch hg.named
    intro id t hid ht
    change (dispatch c st txn rq i).1.tasks.get id = some t at ht
    rcases hq.tasks with ⟨e1, _⟩ | ⟨t', hs, e1, _⟩
    · rw [e1] at ht; exact h id t hid ht
    · rw [e1] at ht
      by_cases hx : id = st.next
      · subst hx
        rw [Tbl.get_insert_self] at ht
        cases ht
        rcases hs with ⟨me, rfl, hm, _⟩ | ⟨rfl, hm⟩
        · exact ha (.inl hm)
        · exact ha (.inr hm)
      · rw [Tbl.get_insert_ne _ _ hx] at ht
        exact h id t hid ht
  | turn j i =>
    intro id t hid ht
    change (turn c st j i).1.tasks.get id = some t at ht
    by_cases hx : id = j
    · subst hx
      cases hj : st.tasks.get id with
      | none =>
        unfold turn at ht
        rw [hj] at ht
        simp only at ht
        rw [hj] at ht
        cases ht
      | some t0 => exact (turn_key hj (h id t0 hid hj)).2 t ht
    · rw [(aside_turn c st j i).tasks id hx] at ht
      exact h id t hid ht
  | expired d =>
    intro id t hid ht
    change (if c.timers then { st with dialogs := st.dialogs.remove d } else st).tasks.get id = some t at ht
    split at ht <;> exact h id t hid ht
  | sweep now => exact h

/-- An event that leaves the pending INVITE under the key alone. -/
theorem wait_step {c : Cfg} {st : St} {k : Str} {own : List Nat} (hg : Good st) (h : Lone k own st) {e : Ev}
    (hown : ∀ n ∈ own, ∀ i, e ≠ .turn n i) {w : Wait} (hw : st.waits.get k = some w) (hs : ∀ now, e = .sweep now → now < w.born + 300 * 10 ^ 9) :
    (step c st e).1.waits.get k = some w := by
  cases e with
  | request txn rq i =>
    have hq : Quiet c txn rq st (dispatch c st txn rq i).1 := quiet_dispatch hg.named
    show (dispatch c st txn rq i).1.waits.get k = some w
    rw [hq.waits]
    exact hw
  | turn j i =>
    show (turn c st j i).1.waits.get k = some w
    cases hj : st.tasks.get j with
    | none => unfold turn; rw [hj]; exact hw
    | some t0 =>
      rw [(turn_key hj (h j t0 (fun hm => hown j hm i rfl) hj)).1]
      exact hw
  | expired d =>
    show (if c.timers then { st with dialogs := st.dialogs.remove d } else st).waits.get k = some w
    split <;> exact hw
  | sweep now =>
    refine get_filter hw ?_
    have := hs now rfl
    simp only [decide_eq_true_eq]
    omega

theorem lone_run {c : Cfg} {k : Str} {own : List Nat} : ∀ (es : List Ev) {st : St}, Good st → Lone k own st → (∀ e ∈ es, e.Away k) →
    (∀ e ∈ es, ∀ n ∈ own, ∀ i, e ≠ .turn n i) → Lone k own (run c st es).1
  | [], _, _, h, _, _ => h
  | e :: es, st, hg, h, ha, ho => by
    rw [run_cons]
    exact lone_run es (good_step hg e) (lone_step hg h (ha e (by simp)) (ho e (by simp))) (fun e' he' => ha e' (by simp [he']))
      (fun e' he' => ho e' (by simp [he']))

theorem wait_run {c : Cfg} {k : Str} {own : List Nat} {w : Wait} : ∀ (es : List Ev) {st : St}, Good st → Lone k own st → (∀ e ∈ es, e.Away k) →
    (∀ e ∈ es, ∀ n ∈ own, ∀ i, e ≠ .turn n i) → st.waits.get k = some w → (∀ now, .sweep now ∈ es → now < w.born + 300 * 10 ^ 9) →
    (run c st es).1.waits.get k = some w
  | [], _, _, _, _, _, hw, _ => hw
  | e :: es, st, hg, h, ha, ho, hw, hs => by
    rw [run_cons]
    exact wait_run es (good_step hg e) (lone_step hg h (ha e (by simp)) (ho e (by simp))) (fun e' he' => ha e' (by simp [he']))
      (fun e' he' => ho e' (by simp [he'])) (wait_step hg h (ho e (by simp)) hw (fun now e' => hs now (by simp [e'])))
      (fun now hn => hs now (by simp [hn]))

theorem lone_more {k : Str} {own : List Nat} {st : St} (h : Lone k own st) (n : Nat) : Lone k (n :: own) st :=
  fun id t hid ht => h id t (fun hm => hid (by simp [hm])) ht

end Siphon.Daemon
