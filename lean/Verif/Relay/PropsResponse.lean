import Verif.Relay.PropsInvite
import Verif.Offer.Lemmas
import Verif.Base.Table
set_option linter.unusedSimpArgs false
/-!
# C128: responses
-/
namespace Siphon.Relay
open HdrSpec TextSpec Spec MfSpec
open Siphon.Proxy (checkMaxForwards removeTopVia addVia)
open Siphon.Proxy.FwdSpec (WithoutTopVia IsVia)
open Siphon.Dlg (first_iff)
open Siphon.Dlg.Spec (First)
open Siphon.Manager (branchFromVia)
open Siphon.Daemon (Gate exempt noHops)

/-! ## The branch of a response -/

/-- What the search for the branch does with one piece. -/
theorem param_iff (p b : Str) :
    (match splitOnce '=' p with
     | none => none
     | some (name, value) => if eqIgnoreCase (trim name) "branch".toList then some (trim value) else none) = some b ↔
      BranchParam p b := by
  unfold BranchParam
  cases hs : splitOnce '=' p with
  | none =>
    simp only [reduceCtorEq, false_iff]
    rintro ⟨n, v, m, h1, h2, _⟩
    rw [(Offer.splitOnce_some_iff '=' p n v).mpr ⟨h1, h2⟩] at hs
    cases hs
  | some nv =>
    obtain ⟨n, v⟩ := nv
    simp only
    obtain ⟨h1, h2⟩ := (Offer.splitOnce_some_iff '=' p n v).mp hs
    constructor
    · intro h
      split at h
      · rename_i hc
        cases h
        exact ⟨n, v, trim n, h1, h2, (strips_trim _ _).mpr rfl, (sameName_iff _ _).mpr hc, (strips_trim _ _).mpr rfl⟩
      · cases h
    · rintro ⟨n', v', m, g1, g2, g3, g4, g5⟩
      have := (Offer.splitOnce_some_iff '=' p n' v').mpr ⟨g1, g2⟩
      rw [hs] at this
      cases this
      rw [(strips_trim _ _).mp g3] at g4
      rw [if_pos ((sameName_iff _ _).mp g4), (strips_trim _ _).mp g5]

theorem findSome_iff {α : Type} (f : Str → Option α) (b : α) : ∀ l : List Str,
    l.findSome? f = some b ↔ ∃ pre p post, l = pre ++ p :: post ∧ f p = some b ∧ ∀ y ∈ pre, f y = none
  | [] => by simp
  | x :: xs => by
    rw [List.findSome?_cons]
    cases hx : f x with
    | some a =>
      simp only
      constructor
      · rintro h
        cases h
        exact ⟨[], x, xs, rfl, hx, by simp⟩
      · rintro ⟨pre, p, post, h1, h2, h3⟩
        cases pre with
        | nil => cases h1; rw [hx] at h2; exact h2
        | cons y pre =>
          cases h1
          rw [h3 x (by simp)] at hx
          cases hx
    | none =>
      simp only
      rw [findSome_iff f b xs]
      constructor
      · rintro ⟨pre, p, post, rfl, h2, h3⟩
        refine ⟨x :: pre, p, post, rfl, h2, ?_⟩
        intro y hy
        rcases List.mem_cons.mp hy with rfl | hy
        · exact hx
        · exact h3 y hy
      · rintro ⟨pre, p, post, h1, h2, h3⟩
        cases pre with
        | nil => cases h1; rw [hx] at h2; cases h2
        | cons y pre =>
          cases h1
          exact ⟨pre, p, post, rfl, h2, fun z hz => h3 z (by simp [hz])⟩

theorem branch_iff (v b : Str) : branchFromVia v = some b ↔
    ∃ pre p post, Pieces ';' v (pre ++ p :: post) ∧ pre ≠ [] ∧ BranchParam p b ∧ ∀ y ∈ pre.tail, ∀ z, ¬ BranchParam y z := by
  have hno : ∀ y, (match splitOnce '=' y with
     | none => none
     | some (name, value) => if eqIgnoreCase (trim name) "branch".toList then some (trim value) else none) = none ↔
      ∀ z, ¬ BranchParam y z := by
    intro y
    rw [Option.eq_none_iff_forall_ne_some]
    constructor
    · intro h z hz; exact h z ((param_iff y z).mpr hz)
    · intro h z hz; exact h z ((param_iff y z).mp hz)
  unfold branchFromVia
  rw [findSome_iff]
  constructor
  · rintro ⟨pre, p, post, h1, h2, h3⟩
    cases hs : splitChar ';' v with
    | nil => exact absurd hs ((pieces_iff ';' v _).mpr rfl).1
    | cons a ps =>
      rw [hs] at h1
      simp only [List.drop_succ_cons, List.drop_zero] at h1
      refine ⟨a :: pre, p, post, (pieces_iff _ _ _).mpr (by rw [hs, h1]; rfl), by simp, (param_iff p b).mp h2, ?_⟩
      intro y hy
      exact (hno y).mp (h3 y hy)
  · rintro ⟨pre, p, post, h1, h2, h3, h4⟩
    cases pre with
    | nil => exact absurd rfl h2
    | cons a pre =>
      refine ⟨pre, p, post, by rw [← (pieces_iff _ _ _).mp h1]; rfl, (param_iff p b).mpr h3, ?_⟩
      intro y hy
      exact (hno y).mpr (h4 y hy)

theorem answers_iff (r : Response) (b : Str) : Answers r b ↔ (r.headers.get "Via".toList).bind branchFromVia = some b := by
  unfold Answers TopBranch
  rw [Option.bind_eq_some_iff]
  constructor
  · rintro ⟨v, pre, p, post, h1, h2⟩
    exact ⟨v, (first_iff _ _ _).mp h1, (branch_iff v b).mpr ⟨pre, p, post, h2⟩⟩
  · rintro ⟨v, h1, h2⟩
    obtain ⟨pre, p, post, h⟩ := (branch_iff v b).mp h2
    exact ⟨v, pre, p, post, (first_iff _ _ _).mpr h1, h⟩

theorem answers_unique {r : Response} {b b' : Str} (h : Answers r b) (h' : Answers r b') : b = b' := by
  rw [answers_iff] at h h'
  rw [h] at h'
  exact Option.some.inj h'

/-! ## Who is remembered -/

theorem keep_eq (c : Cfg) (st : St) (rq : Request) (x : Ctx) (now : Nat) (hi : HInv rq.headers) :
    (∃ b hs, Admitted c rq x b hs ∧ (passOn c st rq x now).1 = ⟨st.txs.insert b ⟨x, callIdOf rq, now⟩⟩) ∨
    ((∀ b hs, ¬ Admitted c rq x b hs) ∧ (passOn c st rq x now).1 = st) := by
  unfold passOn
  simp only
  cases hb : (forward c plainOpts rq x).branch with
  | some b =>
    obtain ⟨hs, h⟩ := (C126_branch c rq x hi b).mp hb
    exact .inl ⟨b, hs, h, rfl⟩
  | none =>
    refine .inr ⟨?_, rfl⟩
    intro b hs h
    rw [(C126_branch c rq x hi b).mpr ⟨hs, h⟩] at hb
    cases hb

theorem onInvite_state (c : Cfg) (st : St) (txn : Nat) (rq : Request) (x : Ctx) (i : Info) :
    (∃ hs, Called c rq x i.branch hs ∧ (∃ r, Uas.createResponse rq.headers 100 "Trying".toList i.tag = .done r) ∧
      (onInvite c st txn rq x i).1 = ⟨st.txs.insert i.branch ⟨x, callIdOf rq, i.now⟩⟩) ∨
    (((∀ hs, ¬ Called c rq x i.branch hs) ∨ ¬ ∃ r, Uas.createResponse rq.headers 100 "Trying".toList i.tag = .done r) ∧
      (onInvite c st txn rq x i).1 = st) := by
  unfold onInvite
  cases hr : Uas.createResponse rq.headers 100 "Trying".toList i.tag with
  | panic => exact .inr ⟨.inr (by simp), rfl⟩
  | done t =>
    simp only
    rcases called_iff c rq x i.branch with ⟨hs, hc, q, e1, e2⟩ | ⟨hn, ⟨e1, _⟩ | ⟨q, e1, _, e2⟩⟩
    · rw [e1]
      simp only
      rw [e2]
      exact .inl ⟨hs, hc, ⟨t, rfl⟩, rfl⟩
    · rw [e1]
      exact .inr ⟨.inl hn, rfl⟩
    · rw [e1]
      simp only
      rw [e2]
      exact .inr ⟨.inl hn, rfl⟩

theorem gate_iff (rq : Request) (g : Gate) : (noHops rq.headers = false ∧ (if exempt rq.method then .pass else g) = .pass) ↔ Reaches rq g := by
  unfold Reaches
  rw [noHops_hops]
  have : exempt rq.method = true ↔ rq.method ∈ [Method.ack, .cancel, .options, .register] := by
    unfold exempt
    simp [or_assoc]
  constructor
  · rintro ⟨h1, h2⟩
    refine ⟨h1, ?_⟩
    by_cases he : exempt rq.method = true
    · exact .inr (this.mp he)
    · rw [if_neg he] at h2; exact .inl h2
  · rintro ⟨h1, h2⟩
    refine ⟨h1, ?_⟩
    by_cases he : exempt rq.method = true
    · rw [if_pos he]
    · rw [if_neg he]
      rcases h2 with h | h
      · exact h
      · exact absurd (this.mpr h) he

theorem dispatch_state (c : Cfg) (st : St) (txn : Nat) (rq : Request) (x : Ctx) (i : Info) :
    (Reaches rq i.gate ∧ rq.method = .invite ∧ (dispatch c st txn rq x i).1 = (onInvite c st txn rq x i).1) ∨
    (Reaches rq i.gate ∧ rq.method ∈ [Method.cancel, .bye, .prack, .update, .info, .message] ∧
      (dispatch c st txn rq x i).1 = (passOn c st rq x i.now).1) ∨
    (¬ (Reaches rq i.gate ∧ rq.method ∈ [Method.invite, .cancel, .bye, .prack, .update, .info, .message]) ∧
      (dispatch c st txn rq x i).1 = st) := by
  unfold dispatch
  have hg := gate_iff rq i.gate
  cases hn : noHops rq.headers with
  | true =>
    rw [hn] at hg
    refine .inr (.inr ⟨fun h => ?_, by simp⟩)
    have := hg.mpr h.1
    cases this.1
  | false =>
    rw [hn] at hg
    simp only [Bool.false_eq_true, if_false]
    cases he : (if exempt rq.method = true then Gate.pass else i.gate) with
    | pass =>
      have hr := hg.mp ⟨rfl, he⟩
      simp only
      by_cases hm : rq.method = .invite
      · rw [if_pos hm]
        exact .inl ⟨hr, hm, rfl⟩
      · rw [if_neg hm]
        by_cases hp : passed rq.method = true
        · rw [if_pos hp]
          exact .inr (.inl ⟨hr, (passed_iff _).mp hp, rfl⟩)
        · rw [if_neg hp]
          refine .inr (.inr ⟨fun h => ?_, rfl⟩)
          rcases List.mem_cons.mp h.2 with h | h
          · exact hm h
          · exact hp ((passed_iff _).mpr h)
    | refused r =>
      refine .inr (.inr ⟨fun h => ?_, rfl⟩)
      have := (hg.mpr h.1).2
      rw [he] at this
      cases this
    | silent =>
      refine .inr (.inr ⟨fun h => ?_, rfl⟩)
      have := (hg.mpr h.1).2
      rw [he] at this
      cases this

/-- A request is stored exactly if it is taken on. -/
theorem takes_state (c : Cfg) (st : St) (e : Ev) (hs : e.Stored) (hreq : ∀ r, e ≠ .response r) (hsw : ∀ n, e ≠ .sweep n) :
    (∃ b x t cid, Takes c b x t e ∧ (step c st e).1 = ⟨st.txs.insert b ⟨x, cid, t⟩⟩) ∨
    ((∀ b x t, ¬ Takes c b x t e) ∧ (step c st e).1 = st) := by
  cases e with
  | response r => exact absurd rfl (hreq r)
  | sweep n => exact absurd rfl (hsw n)
  | ack rq x now =>
    rcases keep_eq c st rq x now hs with ⟨b, l, h, e⟩ | ⟨h, e⟩
    · exact .inl ⟨b, x, now, callIdOf rq, .ack h, e⟩
    · refine .inr ⟨?_, e⟩
      intro b y t ht
      cases ht with
      | ack ha => exact h _ _ ha
  | request txn rq x i =>
    show (∃ b y t cid, Takes c b y t (.request txn rq x i) ∧ (dispatch c st txn rq x i).1 = _) ∨ (_ ∧ (dispatch c st txn rq x i).1 = st)
    rcases dispatch_state c st txn rq x i with ⟨hr, hm, e⟩ | ⟨hr, hm, e⟩ | ⟨hn, e⟩
    · rw [e]
      rcases onInvite_state c st txn rq x i with ⟨l, h1, h2, e⟩ | ⟨h, e⟩
      · exact .inl ⟨i.branch, x, i.now, callIdOf rq, .invite rfl hr hm rfl h2 h1, e⟩
      · refine .inr ⟨?_, e⟩
        intro b y t ht
        cases ht with
        | passed _ _ hm' _ => rw [hm] at hm'; simp at hm'
        | invite _ _ _ hb hd hc =>
          subst hb
          rcases h with h | h
          · exact h _ hc
          · exact h hd
    · rw [e]
      rcases keep_eq c st rq x i.now hs with ⟨b, l, h, e⟩ | ⟨h, e⟩
      · exact .inl ⟨b, x, i.now, callIdOf rq, .passed rfl hr hm h, e⟩
      · refine .inr ⟨?_, e⟩
        intro b y t ht
        cases ht with
        | passed _ _ _ ha => exact h _ _ ha
        | invite _ _ hm' _ _ _ => rw [hm'] at hm; simp at hm
    · rw [e]
      refine .inr ⟨?_, rfl⟩
      intro b y t ht
      cases ht with
      | passed _ hr hm _ => exact hn ⟨hr, by simp only [List.mem_cons] at hm ⊢; exact .inr hm⟩
      | invite _ hr hm _ _ _ => exact hn ⟨hr, by simp [hm]⟩

theorem takes_unique {c : Cfg} {e : Ev} {b b' : Str} {x x' : Ctx} {t t' : Nat} (h : Takes c b x t e) (h' : Takes c b' x' t' e) :
    b = b' ∧ x = x' ∧ t = t' := by
  cases h with
  | ack ha =>
    cases h' with
    | ack ha' => exact ⟨(admitted_unique ha ha').1, rfl, rfl⟩
  | passed hn hr hm ha =>
    cases h' with
    | passed hn' _ _ ha' => exact ⟨(admitted_unique ha ha').1, rfl, hn.symm.trans hn'⟩
    | invite _ _ hm' _ _ _ => rw [hm'] at hm; simp at hm
  | invite hn hr hm hb hd hc =>
    cases h' with
    | passed _ _ hm' _ => rw [hm] at hm'; simp at hm'
    | invite hn' _ _ hb' _ _ => exact ⟨hb.symm.trans hb', rfl, hn.symm.trans hn'⟩

/-! ## The table -/

theorem get_filter {K V : Type} [DecidableEq K] (p : K × V → Bool) : ∀ (t : Tbl K V) (k : K), (Tbl.keys t).Nodup →
    Tbl.get (t.filter p) k = (Tbl.get t k).filter (fun v => p (k, v))
  | [], k, _ => rfl
  | (k', v) :: t, k, hn => by
    have hn' : k' ∉ Tbl.keys t ∧ (Tbl.keys t).Nodup := by
      simpa [Tbl.keys] using hn
    have ih := get_filter p t k hn'.2
    rw [List.filter_cons]
    by_cases hk : k' = k
    · subst hk
      rw [Tbl.get_cons, if_pos rfl]
      cases hp : p (k', v) with
      | true => rw [if_pos rfl, Tbl.get_cons, if_pos rfl]; simp [Option.filter, hp]
      | false =>
        rw [if_neg (by simp), ih, (Tbl.get_eq_none_iff t k').mpr hn'.1]
        simp [Option.filter, hp]
    · rw [Tbl.get_cons, if_neg hk]
      cases hp : p (k', v) with
      | true => rw [if_pos rfl, Tbl.get_cons, if_neg hk, ih]
      | false => rw [if_neg (by simp), ih]

theorem nodup_filter {K V : Type} [DecidableEq K] (p : K × V → Bool) (t : Tbl K V) (hn : (Tbl.keys t).Nodup) :
    (Tbl.keys (t.filter p)).Nodup := by
  unfold Tbl.keys at *
  exact List.Nodup.sublist (List.Sublist.map _ List.filter_sublist) hn

/-- What a step does to the table. -/
def Matches (c : Cfg) (st : St) (h : List Ev) : Prop :=
  (Tbl.keys st.txs).Nodup ∧ ∀ b x t, (∃ tx, st.txs.get b = some tx ∧ tx.sender = x ∧ tx.born = t) ↔ Open c b x t h

theorem matches_step {c : Cfg} {st : St} {h : List Ev} (hm : Matches c st h) (e : Ev) (hs : e.Stored) :
    Matches c (step c st e).1 (e :: h) := by
  obtain ⟨hn, hm⟩ := hm
  by_cases hq : (∀ r, e ≠ .response r) ∧ ∀ n, e ≠ .sweep n
  · have hend : ∀ b t, ¬ Ends b t e := by
      intro b t he
      cases he with
      | final _ _ => exact hq.1 _ rfl
      | old _ => exact hq.2 _ rfl
    rcases takes_state c st e hs hq.1 hq.2 with ⟨b, x, t, cid, ht, es⟩ | ⟨ht, es⟩
    · rw [es]
      refine ⟨Tbl.nodup_insert _ _ _ hn, ?_⟩
      intro b' x' t'
      by_cases hb : b' = b
      · subst hb
        simp only [Tbl.get_insert_self]
        constructor
        · rintro ⟨tx, h1, h2, h3⟩
          cases h1
          subst h2 h3
          exact .here ht
        · intro ho
          cases ho with
          | here ht' =>
            obtain ⟨_, rfl, rfl⟩ := takes_unique ht ht'
            exact ⟨_, rfl, rfl, rfl⟩
          | later _ hn _ => exact absurd ht (hn _ _)
      · simp only [Tbl.get_insert_ne _ _ hb]
        rw [hm b' x' t']
        constructor
        · intro ho
          exact .later ho (fun y s hy => hb (takes_unique hy ht).1) (hend _ _)
        · intro ho
          cases ho with
          | here ht' => exact absurd (takes_unique ht' ht).1 hb
          | later ho _ _ => exact ho
    · rw [es]
      refine ⟨hn, ?_⟩
      intro b' x' t'
      rw [hm b' x' t']
      constructor
      · intro ho
        exact .later ho (fun y s hy => ht _ _ _ hy) (hend _ _)
      · intro ho
        cases ho with
        | here ht' => exact absurd ht' (ht _ _ _)
        | later ho _ _ => exact ho
  · cases e with
    | request txn rq x i => exact absurd ⟨by simp, by simp⟩ hq
    | ack rq x now => exact absurd ⟨by simp, by simp⟩ hq
    | response r =>
      have hnt : ∀ b y s, ¬ Takes c b y s (.response r) := fun b y s ht => by cases ht
      have hun : ∀ (st' : St), (Tbl.keys st'.txs).Nodup →
          (∀ b', (Answers r b' ∧ 200 ≤ r.code → st'.txs.get b' = none) ∧ (¬ (Answers r b' ∧ 200 ≤ r.code) → st'.txs.get b' = st.txs.get b')) →
          Matches c st' (.response r :: h) := by
        intro st' hn' he
        refine ⟨hn', ?_⟩
        intro b' x' t'
        by_cases ha : Answers r b' ∧ 200 ≤ r.code
        · rw [(he b').1 ha]
          constructor
          · rintro ⟨_, h, _⟩; cases h
          · intro ho
            cases ho with
            | here ht => exact absurd ht (hnt _ _ _)
            | later _ _ hnend => exact absurd (Ends.final ha.1 ha.2) hnend
        · rw [(he b').2 ha, hm b' x' t']
          constructor
          · intro ho
            refine .later ho (hnt b') ?_
            intro hend
            cases hend with
            | final h1 h2 => exact ha ⟨h1, h2⟩
          · intro ho
            cases ho with
            | here ht => exact absurd ht (hnt _ _ _)
            | later ho _ _ => exact ho
      show Matches c (onResponse c st r).1 _
      unfold onResponse
      cases hb : (r.headers.get "Via".toList).bind branchFromVia with
      | none =>
        refine hun st hn (fun b' => ⟨fun ha => ?_, fun _ => rfl⟩)
        have := (answers_iff r b').mp ha.1
        rw [hb] at this
        cases this
      | some b =>
        have hab := (answers_iff r b).mpr hb
        simp only
        cases hg : st.txs.get b with
        | none =>
          refine hun st hn (fun b' => ⟨fun ha => ?_, fun _ => rfl⟩)
          rw [answers_unique ha.1 hab]
          exact hg
        | some tx =>
          simp only
          by_cases hc : r.code ≥ 200
          · rw [if_pos hc]
            refine hun _ (Tbl.nodup_remove _ _ hn) (fun b' => ⟨fun ha => ?_, fun ha => ?_⟩)
            · rw [answers_unique ha.1 hab]
              exact Tbl.get_remove_self _ _
            · refine Tbl.get_remove_ne _ (fun e => ha ?_)
              subst e
              exact ⟨hab, hc⟩
          · rw [if_neg hc]
            exact hun st hn (fun b' => ⟨fun ha => absurd ha.2 hc, fun _ => rfl⟩)
    | sweep now =>
      have hnt : ∀ b y s, ¬ Takes c b y s (.sweep now) := fun b y s ht => by cases ht
      refine ⟨nodup_filter _ _ hn, ?_⟩
      intro b' x' t'
      show (∃ tx, Tbl.get (st.txs.filter fun p => decide (now - p.2.born < 300 * 1000000000)) b' = some tx ∧ _) ↔ _
      rw [get_filter _ _ _ hn]
      constructor
      · rintro ⟨tx, h1, rfl, rfl⟩
        obtain ⟨h2, h3⟩ := Option.filter_eq_some_iff.mp h1
        refine .later ((hm b' tx.sender tx.born).mp ⟨tx, h2, rfl, rfl⟩) (hnt b') ?_
        intro hend
        cases hend with
        | old ho =>
          simp only [decide_eq_true_eq] at h3
          omega
      · intro ho
        cases ho with
        | here ht => exact absurd ht (hnt _ _ _)
        | later ho _ hnend =>
          obtain ⟨tx, h1, h2, h3⟩ := (hm b' x' t').mpr ho
          refine ⟨tx, Option.filter_eq_some_iff.mpr ⟨h1, ?_⟩, h2, h3⟩
          simp only [decide_eq_true_eq]
          refine Nat.lt_of_not_le (fun hle => hnend (.old ?_))
          rw [← h3]
          omega

theorem run_snoc (c : Cfg) : ∀ (es : List Ev) (st : St) (e : Ev), run c st (es ++ [e]) = (step c (run c st es) e).1
  | [], _, _ => rfl
  | x :: es, st, e => by
    show run c (step c st x).1 (es ++ [e]) = _
    rw [run_snoc c es]
    rfl

theorem matches_run (c : Cfg) (es : List Ev) (hs : ∀ e ∈ es, e.Stored) : Matches c (run c init es) es.reverse := by
  induction hn : es.length generalizing es with
  | zero =>
    have := List.length_eq_zero_iff.mp hn
    subst this
    refine ⟨by simp [run, init, Tbl.keys], ?_⟩
    intro b x t
    constructor
    · rintro ⟨_, h, _⟩; cases h
    · intro h; cases h
  | succ n ih =>
    have hne : es ≠ [] := by
      intro h; rw [h] at hn; cases hn
    obtain ⟨l, e, rfl⟩ : ∃ l e, es = l ++ [e] := ⟨es.dropLast, es.getLast hne, (List.dropLast_concat_getLast hne).symm⟩
    rw [run_snoc, List.reverse_append]
    exact matches_step (ih l (fun x hx => hs x (by simp [hx])) (by simpa using hn)) e (hs e (by simp))

/-! ## The property -/

theorem back_iff (c : Cfg) (x : Ctx) (d : Dest) : Back c x d ↔ wayBack c x = some d := by
  unfold wayBack
  constructor
  · intro h
    cases h with
    | udp h1 h2 => rw [h1]; simp [h2]
    | tcp h1 => rw [h1]
    | tls h1 h2 => rw [h1]; simp [h2]
    | @wsUrl s u h1 h2 h3 => cases s <;> (rw [h1]; simp [h2, h3])
    | @ws s h1 h2 h3 => cases s <;> (rw [h1]; simp [h2, h3])
  · intro h
    cases ht : x.transport <;> rw [ht] at h <;> simp only at h
    · split at h
      · rename_i hc; cases h; exact .udp ht hc
      · cases h
    · cases h; exact .tcp ht
    · obtain ⟨s, h1, rfl⟩ := Option.map_eq_some_iff.mp h
      exact .tls ht h1
    · split at h
      · rename_i hc
        cases h
        cases hw : x.wsUri with
        | some u => exact .wsUrl (s := false) ht hc hw
        | none => exact .ws (s := false) ht hc hw
      · cases h
    · split at h
      · rename_i hc
        cases h
        cases hw : x.wsUri with
        | some u => exact .wsUrl (s := true) ht hc hw
        | none => exact .ws (s := true) ht hc hw
      · cases h
    · cases h
    · cases h

theorem withoutTopVia_iff (l l' : List Header) : WithoutTopVia l l' ↔ l' = (removeTopVia ⟨l⟩).inner := by
  unfold removeTopVia
  simp only
  have hd := Proxy.dropFirst_spec "Via".toList l
  constructor
  · rintro (⟨pre, h, post, h1, h2, h3, h4⟩ | ⟨h1, h2⟩)
    · rcases hd with ⟨pre', h', post', g1, g2, g3, g4⟩ | ⟨g1, _⟩
      · rw [h1] at g1
        obtain ⟨rfl, rfl, rfl⟩ := first_split_unique (P := IsVia) g1 h2 g2 h3 g3
        rw [g4, h4]
      · exact absurd h2 (g1 h (by simp [h1]))
    · rcases hd with ⟨pre', h', post', g1, g2, g3, g4⟩ | ⟨_, g2⟩
      · exact absurd g2 (h1 h' (by simp [g1]))
      · rw [g2, h2]
  · rintro rfl
    exact hd

/-- C128: whatever happened before, a response is passed on to the sender of the latest request that the proxy took on with the branch
of its top Via, as long as that request is open, without that Via and otherwise unchanged; and every response that is passed on is. -/
theorem C128_response (c : Cfg) (es : List Ev) (hs : ∀ e ∈ es, e.Stored) (r : Response) (d : Dest) (r' : Response) :
    (step c (run c init es) (.response r)).2 = [.response d r'] ↔
      ∃ b x t, Answers r b ∧ Open c b x t es.reverse ∧ Back c x d ∧ Returned r r' := by
  obtain ⟨_, hm⟩ := matches_run c es hs
  show (onResponse c (run c init es) r).2 = _ ↔ _
  unfold onResponse
  cases hb : (r.headers.get "Via".toList).bind branchFromVia with
  | none =>
    simp only
    constructor
    · intro h; cases h
    · rintro ⟨b, x, t, h, _⟩
      rw [(answers_iff r b).mp h] at hb
      cases hb
  | some b =>
    have hab := (answers_iff r b).mpr hb
    simp only
    cases hg : (run c init es).txs.get b with
    | none =>
      simp only
      constructor
      · intro h; cases h
      · rintro ⟨b', x, t, h, h', _⟩
        rw [answers_unique h hab] at h'
        obtain ⟨tx, h1, _⟩ := (hm b x t).mpr h'
        rw [hg] at h1
        cases h1
    | some tx =>
      simp only
      have ho := (hm b tx.sender tx.born).mp ⟨tx, hg, rfl, rfl⟩
      constructor
      · intro h
        cases hw : wayBack c tx.sender with
        | none => rw [hw] at h; cases h
        | some d' =>
          rw [hw] at h
          cases h
          exact ⟨b, tx.sender, tx.born, hab, ho, (back_iff _ _ _).mpr hw, rfl, rfl, rfl, (withoutTopVia_iff _ _).mpr rfl⟩
      · rintro ⟨b', x, t, h1, h2, h3, h4, h5, h6, h7⟩
        rw [answers_unique h1 hab] at h2
        obtain ⟨tx', g1, g2, _⟩ := (hm b x t).mpr h2
        rw [hg] at g1
        cases g1
        rw [← g2] at h3
        rw [(back_iff _ _ _).mp h3]
        simp only [List.cons.injEq, and_true, Out.response.injEq, true_and]
        have h8 := (withoutTopVia_iff _ _).mp h7
        clear h7
        obtain ⟨c', rs, ⟨hd⟩, bd⟩ := r'
        simp only at h4 h5 h6 h8
        subst h4 h5 h6 h8
        rfl

/-- C128: a response that belongs to no open request is given to the transaction layer, and nothing else is. -/
theorem C128_up (c : Cfg) (es : List Ev) (hs : ∀ e ∈ es, e.Stored) (r r' : Response) :
    (step c (run c init es) (.response r)).2 = [.up r'] ↔
      r' = r ∧ ∀ b x t, Answers r b → ¬ Open c b x t es.reverse := by
  obtain ⟨_, hm⟩ := matches_run c es hs
  show (onResponse c (run c init es) r).2 = _ ↔ _
  unfold onResponse
  cases hb : (r.headers.get "Via".toList).bind branchFromVia with
  | none =>
    simp only [List.cons.injEq, and_true, Out.up.injEq]
    constructor
    · rintro rfl
      refine ⟨rfl, fun b x t h => ?_⟩
      rw [(answers_iff r b).mp h] at hb
      cases hb
    · rintro ⟨rfl, _⟩; rfl
  | some b =>
    have hab := (answers_iff r b).mpr hb
    simp only
    cases hg : (run c init es).txs.get b with
    | none =>
      simp only [List.cons.injEq, and_true, Out.up.injEq]
      constructor
      · rintro rfl
        refine ⟨rfl, fun b' x t h h' => ?_⟩
        rw [answers_unique h hab] at h'
        obtain ⟨tx, h1, _⟩ := (hm b x t).mpr h'
        rw [hg] at h1
        cases h1
      · rintro ⟨rfl, _⟩; rfl
    | some tx =>
      simp only
      have ho := (hm b tx.sender tx.born).mp ⟨tx, hg, rfl, rfl⟩
      constructor
      · intro h
        split at h <;> cases h
      · rintro ⟨_, h⟩
        exact absurd ho (h _ _ _ hab)

/-- C128: a response causes at most one message. -/
theorem C128_one (c : Cfg) (st : St) (r : Response) : (step c st (.response r)).2.length ≤ 1 := by
  show (onResponse c st r).2.length ≤ 1
  unfold onResponse
  repeat' split
  all_goals simp

theorem open_old {c : Cfg} {b : Str} {x : Ctx} {t : Nat} : ∀ (new : List Ev) {old : List Ev}, (∀ e ∈ new, ∀ y s, ¬ Takes c b y s e) →
    Open c b x t (new ++ old) → Open c b x t old
  | [], _, _, h => h
  | e :: new, old, hn, h => by
    cases h with
    | here ht => exact absurd ht (hn e (by simp) _ _)
    | later ho _ _ => exact open_old new (fun e he => hn e (by simp [he])) ho

/-- **C128 fails for 2xx responses after the first.**  Once a final response to a branch came, no further response with that branch is
passed on until a request with that branch is: a 200 that is retransmitted because its ACK was lost, and the 200 of a second callee of a
forked call, do not reach the caller. -/
theorem C128_once (c : Cfg) (es later : List Ev) (hs : ∀ e ∈ es ++ later, e.Stored) (b : Str) (f r : Response) (hf : Answers f b)
    (hc : 200 ≤ f.code) (hr : Answers r b) (hl : ∀ e ∈ later, ∀ y s, ¬ Takes c b y s e) :
    (step c (run c init (es ++ .response f :: later)) (.response r)).2 = [.up r] := by
  refine (C128_up c _ ?_ r r).mpr ⟨rfl, ?_⟩
  · intro e he
    rcases List.mem_append.mp he with h | h
    · exact hs e (by simp [h])
    · rcases List.mem_cons.mp h with rfl | h
      · trivial
      · exact hs e (by simp [h])
  · intro b' x t ha ho
    rw [answers_unique ha hr, List.reverse_append, List.reverse_cons, List.append_assoc] at ho
    have ho := open_old later.reverse (fun e he => hl e (by simpa using he)) ho
    cases ho with
    | here ht => cases ht
    | later _ _ hn => exact hn (.final hf hc)

/-- **C128: who sends the same request takes over its responses.**  The branch of a request that is not an INVITE is a hash of its
Request-URI, To, From, Call-ID and CSeq.  If another peer sends a request in which these are the same, the responses go to that peer. -/
theorem C128_takeover (c : Cfg) (es : List Ev) (hs : ∀ e ∈ es, e.Stored) (e : Ev) (he : e.Stored) (b : Str) (y : Ctx) (t : Nat)
    (ht : Takes c b y t e) (r : Response) (hr : Answers r b) (d : Dest) (hd : Back c y d) :
    ∃ r', Returned r r' ∧ (step c (run c init (es ++ [e])) (.response r)).2 = [.response d r'] := by
  refine ⟨{ r with headers := removeTopVia r.headers }, ⟨rfl, rfl, rfl, (withoutTopVia_iff _ _).mpr rfl⟩, ?_⟩
  refine (C128_response c _ ?_ r d _).mpr ⟨b, y, t, hr, ?_, hd, rfl, rfl, rfl, (withoutTopVia_iff _ _).mpr rfl⟩
  · intro z hz
    rcases List.mem_append.mp hz with h | h
    · exact hs z h
    · rw [List.mem_singleton] at h; subst h; exact he
  · rw [List.reverse_append]
    exact .here ht

end Siphon.Relay
