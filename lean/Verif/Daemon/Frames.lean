import Verif.Daemon.Lemmas
set_option linter.unusedSimpArgs false
set_option linter.unusedVariables false
/-!
# What a step of the daemon leaves alone
-/
namespace Siphon.Daemon
open HdrSpec TextSpec
open Siphon.Dlg.Spec
open Siphon.Uas.Spec (Copied)
open Siphon.Bridge (putAll answerTo keepDialog bracket noSuchCall)
open Siphon.Dlg (Dialog DialogId Mgr MOp Validator copyHeader dialogIdKey first_iff absent_iff)
open Siphon.Uas (createResponse createOk acceptInvite)
open Spec

/-- the task a request starts -/
def Starts (c : Cfg) (txn : Nat) (rq : Request) (t : Task) : Prop :=
  (∃ me, t = .trying txn rq me ∧ rq.method = .invite ∧ SipUri.parse c.localUri = some me) ∨ (t = .cancel rq ∧ rq.method = .cancel)

/-- What a request does to everything but the dialogs and the PRACK numbers. -/
structure Quiet (c : Cfg) (txn : Nat) (rq : Request) (st st' : St) : Prop where
  waits : st'.waits = st.waits
  rseqs : st'.rseqs = st.rseqs
  tasks : (st'.tasks = st.tasks ∧ st'.next = st.next) ∨
    ∃ t, Starts c txn rq t ∧ st'.tasks = st.tasks.insert st.next t ∧ st'.next = st.next + 1
  dialogs : ∀ i, st'.dialogs.get i ≠ st.dialogs.get i → Names rq.headers i.callId i.remoteTag i.localTag

theorem Quiet.refl (c : Cfg) (txn : Nat) (rq : Request) (st : St) : Quiet c txn rq st st := ⟨rfl, rfl, .inl ⟨rfl, rfl⟩, fun _ h => absurd rfl h⟩

theorem reply_state (st : St) (txn : Nat) (r : Run Response) : (reply st txn r).1 = st := by
  unfold reply; split <;> rfl

theorem quiet_reply (c : Cfg) (txn t : Nat) (rq : Request) (st : St) (r : Run Response) : Quiet c txn rq st (reply st t r).1 := by
  rw [reply_state]; exact .refl ..

theorem quiet_spawn {c : Cfg} {txn : Nat} {rq : Request} (st : St) {t : Task} (h : Starts c txn rq t) : Quiet c txn rq st (spawn st t) :=
  ⟨rfl, rfl, .inr ⟨t, h, rfl, rfl⟩, fun _ h => absurd rfl h⟩

/-- A table of dialogs in which every dialog is under its own name. -/
def Named (m : Mgr) : Prop := ∀ i d, m.get i = some d → d.id = i

theorem updateFromRequest_id {d d' : Dialog} {rq : Request} (h : d.updateFromRequest rq = (.ok (), d')) : d'.id = d.id :=
  (Dlg.C91_request d d' rq h).1.id

theorem updateFromResponse_id (d : Dialog) (r : Response) : (d.updateFromResponse r).id = d.id := (Dlg.C91_response d r).1.id

theorem quiet_modify {c : Cfg} {st : St} {txn : Nat} {rq : Request} {i : Info} {re : Bool} {d : Dialog}
    (hn : Names rq.headers d.id.callId d.id.remoteTag d.id.localTag) : Quiet c txn rq st (modify c st txn rq i re d).1 := by
  unfold modify
  split
  · exact quiet_reply ..
  · rename_i d' hd
    split
    · exact .refl ..
    · exact quiet_reply ..
    · split
      · split
        · exact quiet_reply ..
        · exact .refl ..
      · split
        · exact .refl ..
        · split
          · exact .refl ..
          · refine ⟨rfl, rfl, .inl ⟨rfl, rfl⟩, fun j hj => ?_⟩
            simp only at hj
            by_cases e : j = (d'.updateFromResponse (by assumption)).id
            · rw [updateFromResponse_id, updateFromRequest_id hd] at e
              subst e
              exact hn
            · exact absurd (keepDialog_get _ _ e) hj

theorem find_named {st : St} (hN : Named st.dialogs) {hs : Headers} {d : Dialog} (h : st.dialogs.findByRequest hs = .done (some d)) :
    Names hs d.id.callId d.id.remoteTag d.id.localTag := by
  obtain ⟨i, h1, h2⟩ := find_some h
  rw [hN i d h2]
  exact h1

theorem quiet_handle {c : Cfg} {st : St} {txn : Nat} {rq : Request} {i : Info} (hN : Named st.dialogs) :
    Quiet c txn rq st (handle c st txn rq i).1 := by
  unfold handle
  split
  · split
    · exact .refl ..
    · split
      · rename_i hm
        unfold onInvite
        split
        · exact quiet_reply ..
        · split
          · exact .refl ..
          · rename_i d hd
            exact quiet_modify (find_named hN hd)
          · split
            · exact quiet_reply ..
            · unfold greet
              split
              · exact quiet_reply ..
              · split
                · exact quiet_reply ..
                · split
                  · exact .refl ..
                  · rename_i me hme
                    split
                    · exact .refl ..
                    · exact quiet_spawn st (.inl ⟨me, rfl, hm, hme⟩)
      · split
        · rename_i hm
          unfold onCancel
          split
          · exact quiet_reply ..
          · split
            · exact .refl ..
            · exact quiet_spawn st (.inr ⟨rfl, hm⟩)
        · split
          · unfold onBye
            split
            · exact .refl ..
            · exact .refl ..
            · rename_i d hd
              split
              · exact .refl ..
              · refine ⟨rfl, rfl, .inl ⟨rfl, rfl⟩, fun j hj => ?_⟩
                simp only at hj
                by_cases e : j = d.id
                · subst e; exact find_named hN hd
                · exact absurd (Tbl.get_remove_ne _ e) hj
          · split
            · unfold within
              split
              · exact .refl ..
              · exact quiet_reply ..
              · unfold onPrack
                split
                · exact quiet_reply ..
                · split
                  · exact .refl ..
                  · exact ⟨rfl, rfl, .inl ⟨rfl, rfl⟩, fun _ h => absurd rfl h⟩
                  · rw [reply_state]
                    exact ⟨rfl, rfl, .inl ⟨rfl, rfl⟩, fun _ h => absurd rfl h⟩
            · split
              · unfold within
                split
                · exact .refl ..
                · exact quiet_reply ..
                · rename_i d hd
                  exact quiet_modify (find_named hN hd)
              · unfold within
                split
                · exact .refl ..
                · exact quiet_reply ..
                · exact quiet_reply ..
  · exact .refl ..

theorem quiet_dispatch {c : Cfg} {st : St} {txn : Nat} {rq : Request} {i : Info} (hN : Named st.dialogs) :
    Quiet c txn rq st (dispatch c st txn rq i).1 := by
  unfold dispatch
  split
  · exact .refl ..
  · split
    · exact quiet_handle hN
    · split
      · exact quiet_handle hN
      · exact .refl ..
      · exact .refl ..

/-! ## Turns -/

/-- What the turn of a task leaves alone. -/
structure Aside (id : Nat) (st st' : St) : Prop where
  next : st'.next = st.next
  tasks : ∀ j, j ≠ id → st'.tasks.get j = st.tasks.get j

theorem Aside.refl (id : Nat) (st : St) : Aside id st st := ⟨rfl, fun _ _ => rfl⟩

theorem retag_tasks (st : St) (k : Option Str) (r : Response) : (retag st k r).tasks = st.tasks ∧ (retag st k r).next = st.next ∧
    (retag st k r).dialogs = st.dialogs ∧ (retag st k r).rseqs = st.rseqs := by
  unfold retag; split <;> exact ⟨rfl, rfl, rfl, rfl⟩

theorem keepWait_tasks (st : St) (w : Option (Str × Wait)) : (keepWait st w).tasks = st.tasks ∧ (keepWait st w).next = st.next ∧
    (keepWait st w).dialogs = st.dialogs ∧ (keepWait st w).rseqs = st.rseqs := by
  unfold keepWait; split <;> exact ⟨rfl, rfl, rfl, rfl⟩

theorem dropWait_tasks (st : St) (k : Option Str) : (dropWait st k).tasks = st.tasks ∧ (dropWait st k).next = st.next ∧
    (dropWait st k).dialogs = st.dialogs ∧ (dropWait st k).rseqs = st.rseqs := by
  unfold dropWait; split <;> exact ⟨rfl, rfl, rfl, rfl⟩

theorem reliable_tasks {c : Cfg} {st st' : St} {rq : Request} {i : Info} {me : SipUri} {r r' : Response} {x : Option (Str × Nat)}
    (h : reliable c st rq i me r = some (st', r', x)) : st'.tasks = st.tasks ∧ st'.next = st.next ∧ st'.waits = st.waits := by
  unfold reliable at h
  split at h
  · cases h; exact ⟨rfl, rfl, rfl⟩
  · split at h
    · cases h
    · cases h; exact ⟨rfl, rfl, rfl⟩
    · simp only [Option.some.injEq, Prod.mk.injEq] at h
      obtain ⟨rfl, _⟩ := h
      exact ⟨rfl, rfl, rfl⟩

theorem aside_ring (c : Cfg) (st : St) (id txn : Nat) (rq : Request) (i : Info) (me : SipUri) (key : Option Str) :
    Aside id st (ring c st id txn rq i me key).1 := by
  unfold ring
  split
  · exact .refl ..
  · split
    · exact .refl ..
    · rename_i r _ st' r' rel h
      have e : st'.tasks = st.tasks ∧ st'.next = st.next := by
        split at h
        · exact ⟨(reliable_tasks h).1, (reliable_tasks h).2.1⟩
        · cases h; exact ⟨rfl, rfl⟩
      have e2 := retag_tasks st' key r'
      refine ⟨?_, fun j hj => ?_⟩
      · simp only [e2.2.1, e.2]
      · simp only [e2.1, e.1]
        exact Tbl.get_insert_ne _ _ hj

theorem aside_turn (c : Cfg) (st : St) (id : Nat) (i : Info) : Aside id st (turn c st id i).1 := by
  unfold turn
  split
  · exact .refl ..
  · rename_i t ht
    have base : Aside id st { st with tasks := st.tasks.remove id } := ⟨rfl, fun j hj => Tbl.get_remove_ne _ hj⟩
    have trans : ∀ {s' : St}, Aside id { st with tasks := st.tasks.remove id } s' → Aside id st s' := fun h =>
      ⟨h.next.trans base.next, fun j hj => (h.tasks j hj).trans (base.tasks j hj)⟩
    have ins : ∀ (s s' : St) (t : Task), s'.tasks = s.tasks.insert id t → s'.next = s.next → Aside id s s' := fun s s' t h1 h2 =>
      ⟨h2, fun j hj => by rw [h1]; exact Tbl.get_insert_ne _ _ hj⟩
    simp only
    refine trans ?_
    generalize ({ st with tasks := st.tasks.remove id } : St) = s
    split
    · rename_i txn rq me
      unfold afterTrying
      have kw := keepWait_tasks s (waitOf txn i.now rq.headers)
      have tr2 : ∀ {s' : St}, Aside id (keepWait s (waitOf txn i.now rq.headers)) s' → Aside id s s' := fun h =>
        ⟨h.next.trans kw.2.1, fun j hj => (h.tasks j hj).trans (by rw [kw.1])⟩
      simp only
      refine tr2 ?_
      split
      · exact aside_ring ..
      · split
        · exact aside_ring ..
        · split
          · exact .refl ..
          · exact ins _ _ _ rfl rfl
          · exact aside_ring ..
    · rename_i txn rq me key
      unfold afterRinging
      split
      · exact .refl ..
      · exact ins _ _ _ rfl rfl
      · split
        · exact .refl ..
        · exact ins _ _ _ rfl rfl
        · split
          · exact ⟨rfl, fun _ _ => rfl⟩
          · exact ins _ _ _ rfl rfl
    · have := dropWait_tasks s (by assumption)
      exact ⟨this.2.1, fun j _ => by rw [this.1]⟩
    · unfold afterCancel
      split
      · exact .refl ..
      · split
        · exact .refl ..
        · exact ins _ _ _ rfl rfl
    · have := dropWait_tasks s (some (by assumption))
      exact ⟨this.2.1, fun j _ => by rw [this.1]⟩


theorem accept_cases {me : SipUri} {m : Mgr} {rq : Request} {b : Option Str} {tag : Str} {o : Uas.Outcome} {s : Uas.Server}
    (h : acceptInvite ⟨me, me, m⟩ none true rq b tag = .done (o, s)) :
    (∃ r d, o = .accepted r d ∧ s.dialogs = keepDialog m d) ∨ ((∀ r d, o ≠ .accepted r d) ∧ s.dialogs = m) := by
  unfold acceptInvite at h
  split at h
  · cases h; exact .inr ⟨fun _ _ e => (by cases e), rfl⟩
  · split at h
    · cases h
    · cases h; exact .inr ⟨fun _ _ e => (by cases e), rfl⟩
    · split at h
      · cases h; exact .inr ⟨fun _ _ e => (by cases e), rfl⟩
      · split at h
        · cases h
        · cases h; exact .inr ⟨fun _ _ e => (by cases e), rfl⟩
        · split at h
          · cases h; exact .inr ⟨fun _ _ e => (by cases e), rfl⟩
          · unfold Uas.openDialog at h
            split at h
            · cases h; exact .inr ⟨fun _ _ e => (by cases e), rfl⟩
            · split at h
              · cases h
              · cases h; exact .inr ⟨fun _ _ e => (by cases e), rfl⟩
              · cases h; exact .inl ⟨_, _, rfl, rfl⟩

theorem accepted_dialogs {me : SipUri} {m : Mgr} {rq : Request} {b : Option Str} {tag : Str} {r : Response} {d : Dialog} {s : Uas.Server}
    (h : acceptInvite ⟨me, me, m⟩ none true rq b tag = .done (.accepted r d, s)) : s.dialogs = keepDialog m d := by
  rcases accept_cases h with ⟨r', d', e, h2⟩ | ⟨h1, _⟩
  · cases e; exact h2
  · exact absurd rfl (h1 r d)

theorem names_opens {rq : Request} {tag : Str} {code : Nat} (hc : code ≠ 100) {r : Response} (h : Answers rq code tag r) {i : DialogId}
    (hn : Names r.headers i.callId i.remoteTag i.localTag) : Opens rq tag i := by
  obtain ⟨h1, ⟨f, hf, hft⟩, t, ht, htt⟩ := hn
  have cp : ∀ {n : String} {v : Str}, Copied rq.headers r.headers n → First r.headers n v → First rq.headers n v := by
    intro n v hcp hv
    cases hg : rq.headers.get n.toList with
    | none =>
      have := (absent_iff _ _).mp (hcp.2 ((absent_iff _ _).mpr hg))
      rw [first_iff, this] at hv
      cases hv
    | some w =>
      have h2 := hcp.1 w ((first_iff _ _ _).mpr hg)
      have := Dlg.first_unique hv ⟨[], h2⟩
      subst this
      exact (first_iff _ _ _).mpr hg
  refine ⟨cp h.belongs.callId h1, ⟨f, cp h.belongs.from hf, hft⟩, ?_⟩
  cases hg : rq.headers.get "To".toList with
  | none =>
    have := (absent_iff _ _).mp (h.noTo ((absent_iff _ _).mpr hg))
    rw [first_iff, this] at ht
    cases ht
  | some v =>
    have hv := (first_iff _ _ _).mpr hg
    obtain ⟨v', h2, h3⟩ := h.to hc v hv
    have := Dlg.first_unique ht ⟨[], h2⟩
    subst this
    exact ⟨v, _, hv, h3, htt⟩


theorem createOk_answers {me : SipUri} {rq : Request} {tag : Str} {b : Option Str} {r : Response} (h : createOk me rq.headers tag b = .done r) :
    Answers rq 200 tag r ∧ r.body = Uas.Spec.bytes b := by
  obtain ⟨f, c, hb⟩ := Uas.framed_ok h
  obtain ⟨h1, h2, h3, h4, h5, h6, _⟩ := Uas.framed_base f (Uas.extra_others me (.ok b))
  refine ⟨answers_of c h1 h6 h2 h3 h4 h5, ?_⟩
  rw [hb]
  cases b <;> rfl

theorem accepted_answers {me : SipUri} {m : Mgr} {rq : Request} {b : Option Str} {tag : Str} {r : Response} {d : Dialog} {s : Uas.Server}
    (h : acceptInvite ⟨me, me, m⟩ none true rq b tag = .done (.accepted r d, s)) :
    createOk me rq.headers tag b = .done r ∧ Names r.headers d.id.callId d.id.remoteTag d.id.localTag := by
  obtain ⟨_, _, _, hb, _, ho⟩ := Uas.accept_inv h
  obtain ⟨_, _, u, hd⟩ := Uas.openDialog_some ho
  refine ⟨?_, Dlg.C19_uas_named _ _ _ _ _ hd⟩
  simp only [Uas.inviteAnswer, Uas.build] at hb
  split at hb
  · cases hb
  · simp only [Run.bind_eq_done] at hb
    obtain ⟨r1, h1, h2⟩ := hb
    cases h2
    exact h1

theorem accepted_opens {me : SipUri} {m : Mgr} {rq : Request} {b : Option Str} {tag : Str} {r : Response} {d : Dialog} {s : Uas.Server}
    (h : acceptInvite ⟨me, me, m⟩ none true rq b tag = .done (.accepted r d, s)) : Opens rq tag d.id := by
  obtain ⟨h1, h2⟩ := accepted_answers h
  exact names_opens (by decide) (createOk_answers h1).1 h2

theorem reliable_dialogs {c : Cfg} {st st' : St} {rq : Request} {i : Info} {me : SipUri} {r r' : Response} {x : Option (Str × Nat)}
    (ha : Answers rq 180 i.tag r) (h : reliable c st rq i me r = some (st', r', x)) :
    st'.dialogs = st.dialogs ∨ ∃ d, Opens rq i.tag d.id ∧ d.state = .early ∧ st'.dialogs = keepDialog st.dialogs d := by
  unfold reliable at h
  split at h
  · cases h; exact .inl rfl
  · split at h
    · cases h
    · cases h; exact .inl rfl
    · rename_i remote _ d hd
      simp only [Option.some.injEq, Prod.mk.injEq] at h
      obtain ⟨rfl, _⟩ := h
      refine .inr ⟨d, names_opens (by decide) ha (Dlg.C19_uas_named _ _ _ _ _ hd), ?_, rfl⟩
      have := (Uas.newUas_fields hd).1
      rw [ha.status] at this
      unfold Dlg.stateOf at this
      simpa using this.symm

/-- how the turn of a task changes the dialogs -/
inductive Turned (rq : Request) (tag : Str) (m : Mgr) : Mgr → Prop
  | same : Turned rq tag m m
  | one {d} : Opens rq tag d.id → Turned rq tag m (keepDialog m d)
  | two {d d'} : Opens rq tag d.id → d'.id = d.id → Turned rq tag m (keepDialog (keepDialog m d) d')

theorem ring_dialogs (c : Cfg) (st : St) (id txn : Nat) (rq : Request) (i : Info) (me : SipUri) (key : Option Str) :
    Turned rq i.tag st.dialogs (ring c st id txn rq i me key).1.dialogs := by
  unfold ring
  split
  · exact .same
  · rename_i r hr
    split
    · exact .same
    · rename_i _ st' r' rel h
      have e2 := retag_tasks st' key r'
      simp only [e2.2.2.1]
      split at h
      · rcases reliable_dialogs (plain_answers hr).1 h with e | ⟨d, ho, _, e⟩
        · rw [e]; exact .same
        · rw [e]; exact .one ho
      · cases h; exact .same

/-- the request of a task that answers an INVITE -/
def Task.request : Task → Option Request
  | .trying _ rq _ => some rq
  | .ringing _ rq _ _ => some rq
  | _ => none

theorem turn_dialogs (c : Cfg) (st : St) (id : Nat) (i : Info) :
    (turn c st id i).1.dialogs = st.dialogs ∨
      ∃ t rq, st.tasks.get id = some t ∧ t.request = some rq ∧ Turned rq i.tag st.dialogs (turn c st id i).1.dialogs := by
  unfold turn
  split
  · exact .inl rfl
  · rename_i t ht
    cases t with
    | trying txn rq me =>
      refine .inr ⟨_, rq, ht, rfl, ?_⟩
      simp only
      unfold afterTrying
      have kw := keepWait_tasks { st with tasks := st.tasks.remove id } (waitOf txn i.now rq.headers)
      simp only
      generalize keepWait { st with tasks := st.tasks.remove id } (waitOf txn i.now rq.headers) = s at kw
      have e : s.dialogs = st.dialogs := kw.2.2.1
      rw [← e]
      split
      · exact ring_dialogs ..
      · split
        · exact ring_dialogs ..
        · split
          · exact .same
          · exact .same
          · exact ring_dialogs ..
    | ringing txn rq me key =>
      refine .inr ⟨_, rq, ht, rfl, ?_⟩
      simp only
      unfold afterRinging
      split
      · exact .same
      · exact .same
      · split
        · exact .same
        · rename_i r d s hac
          have h1 := accepted_dialogs hac
          have h2 := accepted_opens hac
          simp only
          rw [h1]
          refine .two h2 ?_
          split
          · exact updateFromResponse_id _ _
          · rfl
        · rename_i o s hno hac
          have e : s.dialogs = st.dialogs := by
            rcases accept_cases hac with ⟨r', d', e, h2⟩ | ⟨_, h2⟩
            · subst e; exact absurd rfl (hno _ _)
            · exact h2
          split
          · simp only; rw [e]; exact .same
          · simp only [finalThenClose]; rw [e]; exact .same
    | closing key => exact .inl (dropWait_tasks _ _).2.2.1
    | cancel rq =>
      refine .inl ?_
      simp only
      unfold afterCancel
      repeat' split
      all_goals rfl
    | clearing k => exact .inl (dropWait_tasks _ _).2.2.1

/-! ## States that can be reached -/

theorem named_keep {m : Mgr} (h : Named m) (d : Dialog) : Named (keepDialog m d) := by
  intro i x hx
  by_cases e : i = d.id
  · subst e
    rcases Bridge.keepDialog_cases m d with e | ⟨_, e⟩
    · rw [e] at hx; exact h _ _ hx
    · rw [e] at hx
      have : (⟨m.dialogs.insert d.id d⟩ : Mgr).get d.id = some d := Tbl.get_insert_self _ _ _
      rw [this] at hx
      cases hx
      rfl
  · rw [keepDialog_get m d e] at hx
    exact h i x hx

theorem named_remove {m : Mgr} (h : Named m) (i : DialogId) : Named (m.remove i) := by
  intro j x hx
  by_cases e : j = i
  · subst e
    have : (m.remove j).get j = none := Tbl.get_remove_self _ _
    rw [this] at hx
    cases hx
  · have : (m.remove i).get j = m.get j := Tbl.get_remove_ne _ e
    rw [this] at hx
    exact h j x hx

theorem named_turned {rq : Request} {tag : Str} {m m' : Mgr} (h : Named m) (ht : Turned rq tag m m') : Named m' := by
  cases ht with
  | same => exact h
  | one _ => exact named_keep h _
  | two _ _ => exact named_keep (named_keep h _) _

/-- What holds in every state that can be reached. -/
structure Good (st : St) : Prop where
  named : Named st.dialogs
  fresh : ∀ id, st.next ≤ id → st.tasks.get id = none

theorem good_init : Good init := ⟨fun _ _ h => (by cases h), fun _ _ => rfl⟩

theorem named_handle {c : Cfg} {st : St} {txn : Nat} {rq : Request} {i : Info} (hN : Named st.dialogs) :
    Named (handle c st txn rq i).1.dialogs := by
  have rep : ∀ (s : St) (t : Nat) (r : Run Response), s.dialogs = st.dialogs → Named (reply s t r).1.dialogs := by
    intro s t r h; rw [reply_state, h]; exact hN
  have mdf : ∀ re d, Named (modify c st txn rq i re d).1.dialogs := by
    intro re d
    unfold modify
    repeat' split
    all_goals first | exact rep _ _ _ rfl | exact hN | exact named_keep hN _
  unfold handle
  split
  · split
    · exact hN
    · split
      · unfold onInvite greet spawn
        repeat' split
        all_goals first | exact rep _ _ _ rfl | exact hN | exact mdf _ _
      · split
        · unfold onCancel spawn
          repeat' split
          all_goals first | exact rep _ _ _ rfl | exact hN
        · split
          · unfold onBye
            repeat' split
            all_goals first | exact hN | exact named_remove hN _
          · split
            · unfold within onPrack
              repeat' split
              all_goals first | exact rep _ _ _ rfl | exact hN
            · split
              · unfold within
                repeat' split
                all_goals first | exact rep _ _ _ rfl | exact hN | exact mdf _ _
              · unfold within
                repeat' split
                all_goals first | exact rep _ _ _ rfl | exact hN
  · exact hN

theorem good_step {c : Cfg} {st : St} (h : Good st) (e : Ev) : Good (step c st e).1 := by
  cases e with
  | request txn rq i =>
    have hq : Quiet c txn rq st (dispatch c st txn rq i).1 := quiet_dispatch h.named
    refine ⟨?_, ?_⟩
    · show Named (dispatch c st txn rq i).1.dialogs
      unfold dispatch
      repeat' split
      all_goals first | exact h.named | exact named_handle h.named
    · intro id hid
      show (dispatch c st txn rq i).1.tasks.get id = none
      have hid : (dispatch c st txn rq i).1.next ≤ id := hid
      rcases hq.tasks with ⟨e1, e2⟩ | ⟨t, _, e1, e2⟩
      · rw [e1]; exact h.fresh id (by omega)
      · rw [e1, Tbl.get_insert_ne _ _ (by omega)]
        exact h.fresh id (by omega)
  | turn id i =>
    have ha := aside_turn c st id i
    refine ⟨?_, ?_⟩
    · show Named (turn c st id i).1.dialogs
      rcases turn_dialogs c st id i with e | ⟨_, rq, _, _, ht⟩
      · rw [e]; exact h.named
      · exact named_turned h.named ht
    · intro j hj
      show (turn c st id i).1.tasks.get j = none
      have hj2 : (turn c st id i).1.next ≤ j := hj
      rw [ha.next] at hj2
      clear hj
      by_cases e : j = id
      · subst e
        have := h.fresh j hj2
        unfold turn
        rw [this]
        exact this
      · rw [ha.tasks j e]
        exact h.fresh j hj2
  | expired d =>
    show Good (if c.timers then { st with dialogs := st.dialogs.remove d } else st)
    split
    · exact ⟨named_remove h.named d, h.fresh⟩
    · exact h
  | sweep now => exact ⟨h.named, h.fresh⟩

theorem good_run {c : Cfg} : ∀ (es : List Ev) {st : St}, Good st → Good (run c st es).1
  | [], _, h => h
  | e :: es, _, h => by
    rw [run_cons]
    exact good_run es (good_step h e)

theorem good_reach (c : Cfg) (es : List Ev) : Good (run c init es).1 := good_run es good_init

/-- A task waits until it has its turn. -/
theorem task_step {c : Cfg} {st : St} (h : Good st) {e : Ev} {id : Nat} {t : Task} (ht : st.tasks.get id = some t) (hne : ∀ i, e ≠ .turn id i) :
    (step c st e).1.tasks.get id = some t := by
  have lt : id < st.next := by
    rcases Nat.lt_or_ge id st.next with h1 | h1
    · exact h1
    · rw [h.fresh id h1] at ht; cases ht
  cases e with
  | request txn rq i =>
    have hq : Quiet c txn rq st (dispatch c st txn rq i).1 := quiet_dispatch h.named
    show (dispatch c st txn rq i).1.tasks.get id = some t
    rcases hq.tasks with ⟨e1, _⟩ | ⟨t', _, e1, _⟩
    · rw [e1]; exact ht
    · rw [e1, Tbl.get_insert_ne _ _ (by omega)]; exact ht
  | turn j i =>
    have hj : id ≠ j := fun e => hne i (by rw [e])
    show (turn c st j i).1.tasks.get id = some t
    rw [(aside_turn c st j i).tasks id hj]; exact ht
  | expired d =>
    show (if c.timers then { st with dialogs := st.dialogs.remove d } else st).tasks.get id = some t
    split <;> exact ht
  | sweep now => exact ht

theorem task_run {c : Cfg} {id : Nat} {t : Task} : ∀ (es : List Ev) {st : St}, Good st → st.tasks.get id = some t →
    (∀ e ∈ es, ∀ i, e ≠ .turn id i) → (run c st es).1.tasks.get id = some t
  | [], _, _, h, _ => h
  | e :: es, st, hg, h, hn => by
    rw [run_cons]
    exact task_run es (good_step hg e) (task_step hg h (hn e (by simp))) (fun e' he' => hn e' (by simp [he']))

end Siphon.Daemon
