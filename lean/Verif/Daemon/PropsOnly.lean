import Verif.Daemon.PropsCancel
import Verif.Bridge.PropsReinvite
set_option linter.unusedSimpArgs false
set_option linter.unusedVariables false
/-!
# C119: nothing but a CANCEL ends a call that rings
-/
namespace Siphon.Daemon
open HdrSpec TextSpec
open Siphon.Dlg.Spec
open Siphon.Uas.Spec
open Siphon.Bridge.Spec (Copies Lines Fits Ascii)
open Siphon.Bridge (putAll answerTo keepDialog bracket noSuchCall GoodName putAll_ok lines_putAll mem_remove mem_insert)
open Siphon.Dlg (Dialog DialogId Mgr Validator copyHeader dialogIdKey first_iff absent_iff)
open Siphon.Uas (createResponse createOk acceptInvite)
open Spec

/-! ## Where a 487 comes from -/

/-- the final responses among the outputs have codes other than this one -/
def Without (code : Nat) (os : List Out) : Prop := ∀ t r, .final t r ∈ os → r.code ≠ code

theorem without_nil (code : Nat) : Without code [] := fun _ _ h => by cases h

theorem without_one {code t : Nat} {r : Response} (h : r.code ≠ code) : Without code [.final t r] := by
  intro t' r' hm
  rw [List.mem_singleton] at hm
  cases hm
  exact h

theorem without_plain {st : St} {t code code' : Nat} {rq : Request} {i : Info} {reason : String} (h : code' ≠ code) :
    Without code (reply st t (plain rq i code' reason)).2 := by
  unfold reply
  split
  · exact without_nil _
  · rename_i r hr
    refine without_one ?_
    rw [(plain_answers hr).1.status]
    exact h

theorem without_ok {st : St} {t code : Nat} {rq : Request} {me : SipUri} {tag : Str} {b : Option Str} (h : 200 ≠ code) :
    Without code (reply st t (createOk me rq.headers tag b)).2 := by
  unfold reply
  split
  · exact without_nil _
  · rename_i r hr
    refine without_one ?_
    rw [(createOk_answers hr).1.status]
    exact h

theorem without_modify {c : Cfg} {st : St} {txn : Nat} {rq : Request} {i : Info} {re : Bool} {d : Dialog} :
    Without 487 (modify c st txn rq i re d).2 := by
  unfold modify
  split
  · exact without_plain (by decide)
  · split
    · exact without_nil _
    · exact without_plain (by decide)
    · split
      · split
        · exact without_plain (by decide)
        · exact without_nil _
      · split
        · exact without_nil _
        · split
          · exact without_nil _
          · rename_i ok hok
            intro t r hm
            simp only [List.mem_append] at hm
            rcases hm with hm | hm
            · exfalso
              revert hm
              split
              · unfold timerOf
                split
                · split <;> simp
                · simp
              · simp
            · rw [List.mem_singleton] at hm
              cases hm
              rw [(createOk_answers hok).1.status]
              decide

theorem without_greet {c : Cfg} {st : St} {txn : Nat} {rq : Request} {i : Info} : Without 487 (greet c st txn rq i).2 := by
  unfold greet
  rw [timerTooSmall_none]
  simp only [ite_self]
  split
  · exact without_plain (by decide)
  · split
    · exact without_nil _
    · split
      · exact without_nil _
      · intro t r hm
        simp at hm

theorem without_handle {c : Cfg} {st : St} {txn : Nat} {rq : Request} {i : Info} : Without 487 (handle c st txn rq i).2 := by
  unfold handle
  split
  · split
    · exact without_one (by simp [bare])
    · split
      · unfold onInvite
        split
        · exact without_plain (by decide)
        · split
          · exact without_nil _
          · exact without_modify
          · split
            · rename_i code reason hrr
              refine without_plain ?_
              unfold replacesRefused at hrr
              repeat' split at hrr
              all_goals first | (cases hrr; done) | (cases hrr; decide)
            · exact without_greet
      · split
        · unfold onCancel
          split
          · exact without_plain (by decide)
          · split
            · exact without_nil _
            · rename_i r hr
              refine without_one ?_
              rw [(plain_answers hr).1.status]
              decide
        · split
          · unfold onBye
            split
            · exact without_nil _
            · exact without_one (by simp [noSuchCall])
            · split
              · exact without_nil _
              · rename_i r hr
                refine without_one ?_
                rw [(plain_answers hr).1.status]
                decide
          · split
            · unfold within
              split
              · exact without_nil _
              · exact without_plain (by decide)
              · unfold onPrack
                split
                · exact without_plain (by decide)
                · split
                  · exact without_nil _
                  · exact without_nil _
                  · split
                    · exact without_ok (by decide)
                    · split
                      · exact without_plain (by decide)
                      · exact without_plain (by decide)
            · split
              · unfold within
                split
                · exact without_nil _
                · exact without_plain (by decide)
                · exact without_modify
              · unfold within
                split
                · exact without_nil _
                · exact without_plain (by decide)
                · exact without_plain (by decide)
  · exact without_nil _

/-- A 487 in answer to a request comes from the authenticator. -/
theorem request_487 {c : Cfg} {st : St} {txn t : Nat} {rq : Request} {i : Info} {r : Response} (h : .final t r ∈ (dispatch c st txn rq i).2)
    (hr : r.code = 487) : i.gate = .refused r := by
  unfold dispatch at h
  split at h
  · rw [List.mem_singleton] at h
    cases h
    exact absurd hr (by simp [bare])
  · split at h
    · exact absurd hr (without_handle _ _ h)
    · split at h
      · exact absurd hr (without_handle _ _ h)
      · rename_i r' hg
        rw [List.mem_singleton] at h
        cases h
        exact hg
      · cases h

theorem without_ring {c : Cfg} {st : St} {id txn : Nat} {rq : Request} {i : Info} {me : SipUri} {key : Option Str} :
    Without 487 (ring c st id txn rq i me key).2 := by
  unfold ring
  split
  · exact without_nil _
  · split
    · exact without_nil _
    · rename_i rel _
      intro t r hm
      cases rel <;> simp at hm

theorem timerHeaders_code (c : Cfg) (r : Response) : (timerHeaders c r).code = r.code := by
  unfold timerHeaders
  split <;> rfl

/-- A 487 at the turn of a task is the answer to a pending INVITE, and the task is a CANCEL. -/
theorem turn_487 {c : Cfg} {st : St} {id t : Nat} {i : Info} {r : Response} (h : .final t r ∈ (turn c st id i).2) (hr : r.code = 487) :
    ∃ cq k w, st.tasks.get id = some (.cancel cq) ∧ keyOf cq.headers = some k ∧ st.waits.get k = some w ∧ t = w.txn ∧ r = terminated w := by
  unfold turn at h
  cases ht : st.tasks.get id with
  | none => rw [ht] at h; cases h
  | some task =>
    rw [ht] at h
    cases task with
    | trying txn rq me =>
      exfalso
      refine absurd hr ((?_ : Without 487 (afterTrying c { st with tasks := st.tasks.remove id } id txn rq i me).2) _ _ h)
      unfold afterTrying
      simp only
      split
      · exact without_ring
      · split
        · exact without_ring
        · split
          · exact without_nil _
          · exact without_one (by simp [bare])
          · exact without_ring
    | ringing txn rq me key =>
      exfalso
      refine absurd hr ((?_ : Without 487 (afterRinging c { st with tasks := st.tasks.remove id } id txn rq i me key).2) _ _ h)
      unfold afterRinging
      split
      · exact without_nil _
      · exact without_one (by simp [bare])
      · split
        · exact without_nil _
        · rename_i r' d s hacc
          intro t' r'' hm
          simp only [List.mem_append] at hm
          rcases hm with hm | hm
          · exfalso
            revert hm
            unfold timerOf
            split
            · split <;> simp
            · simp
          · rw [List.mem_singleton] at hm
            cases hm
            rw [timerHeaders_code, (createOk_answers (accepted_answers hacc).1).1.status]
            decide
        · split
          · exact without_nil _
          · rename_i r' hr'
            refine without_one ?_
            rw [(plain_answers hr').1.status]
            decide
    | closing key => cases h
    | cancel cq =>
      simp only at h
      unfold afterCancel at h
      split at h
      · cases h
      · rename_i k hk
        split at h
        · cases h
        · rename_i w hw
          rw [List.mem_singleton] at h
          cases h
          exact ⟨cq, k, w, rfl, hk, hw, rfl, rfl⟩
    | clearing k => cases h

/-! ## Where the pending INVITEs come from -/

/-- The pending INVITE is that of a request in the history. -/
def Kept (es : List Ev) (k : Str) (w : Wait) : Prop :=
  ∃ rq i, .request w.txn rq i ∈ es ∧ rq.method = .invite ∧ keyOf rq.headers = some k ∧ rq.headers.get "Via".toList = some w.via ∧
    rq.headers.get "From".toList = some w.from ∧ rq.headers.get "Call-ID".toList = some w.callId ∧ rq.headers.get "CSeq".toList = some w.cseq

/-- So is the task. -/
def Begun (es : List Ev) : Task → Prop
  | .trying txn rq _ => ∃ i, .request txn rq i ∈ es ∧ rq.method = .invite
  | .ringing txn rq _ _ => ∃ i, .request txn rq i ∈ es ∧ rq.method = .invite
  | .cancel rq => ∃ x i, .request x rq i ∈ es ∧ rq.method = .cancel
  | _ => True

structure Origins (es : List Ev) (st : St) : Prop where
  waits : ∀ e ∈ st.waits, Kept es e.1 e.2
  tasks : ∀ id t, st.tasks.get id = some t → Begun es t

theorem kept_more {es : List Ev} {k : Str} {w : Wait} (h : Kept es k w) (e : Ev) : Kept (es ++ [e]) k w := by
  obtain ⟨rq, i, h1, h2⟩ := h
  exact ⟨rq, i, by simp [h1], h2⟩

theorem begun_more {es : List Ev} {t : Task} (h : Begun es t) (e : Ev) : Begun (es ++ [e]) t := by
  cases t with
  | trying txn rq me => obtain ⟨i, h1, h2⟩ := h; exact ⟨i, by simp [h1], h2⟩
  | cancel rq => obtain ⟨x, i, h1, h2⟩ := h; exact ⟨x, i, by simp [h1], h2⟩
  | ringing txn rq me key => obtain ⟨i, h1, h2⟩ := h; exact ⟨i, by simp [h1], h2⟩
  | closing _ => trivial
  | clearing _ => trivial

theorem kept_update {es : List Ev} {l : Tbl Str Wait} (h : ∀ e ∈ l, Kept es e.1 e.2) (k : Str) (to : Str) :
    ∀ e ∈ l.update k (fun w => { w with to := to }), Kept es e.1 e.2 := by
  intro e he
  unfold Tbl.update at he
  rw [List.mem_map] at he
  obtain ⟨e', he', rfl⟩ := he
  have := h e' he'
  split
  · exact this
  · exact this

theorem kept_retag {es : List Ev} {st : St} (h : ∀ e ∈ st.waits, Kept es e.1 e.2) (key : Option Str) (r : Response) :
    ∀ e ∈ (retag st key r).waits, Kept es e.1 e.2 := by
  unfold retag
  split
  · exact kept_update h _ _
  · exact h

theorem kept_keep {es : List Ev} {st : St} (h : ∀ e ∈ st.waits, Kept es e.1 e.2) {txn now : Nat} {rq : Request} {i : Info}
    (hm : .request txn rq i ∈ es) (hmeth : rq.method = .invite) : ∀ e ∈ (keepWait st (waitOf txn now rq.headers)).waits, Kept es e.1 e.2 := by
  unfold keepWait
  split
  · rename_i k w hw
    intro e he
    rcases mem_insert he with rfl | he
    · obtain ⟨h1, h2, h3, h4, h5, h6, h7, _⟩ := waitOf_key hw
      exact ⟨rq, i, by rw [h2]; exact hm, hmeth, h1, h3, h4, h6, h7⟩
    · exact h e he
  · exact h

theorem origins_turn {c : Cfg} {es : List Ev} {st : St} (h : Origins es st) (id : Nat) (i : Info) : Origins es (turn c st id i).1 := by
  have keep : ∀ {st' : St}, (∀ j, j ≠ id → st'.tasks.get j = st.tasks.get j) → (∀ t, st'.tasks.get id = some t → Begun es t) →
      ∀ j t, st'.tasks.get j = some t → Begun es t := by
    intro st' h1 h2 j t hj
    by_cases e : j = id
    · subst e; exact h2 t hj
    · rw [h1 j e] at hj; exact h.tasks j t hj
  refine ⟨?_, keep (fun j hj => (aside_turn c st id i).tasks j hj) ?_⟩
  · unfold turn
    cases ht : st.tasks.get id with
    | none => exact h.waits
    | some task =>
      have hb := h.tasks id task ht
      cases task with
      | trying txn rq me =>
        obtain ⟨i', h1, h2⟩ := hb
        have hk := kept_keep (st := { st with tasks := st.tasks.remove id }) (now := i.now) h.waits h1 h2
        rcases afterTrying_cases c { st with tasks := st.tasks.remove id } id txn rq i me with ⟨r, e1, _⟩ | ⟨e1, _⟩
        · simp only at e1 ⊢
          rw [e1]
          exact kept_retag hk _ _
        · simp only at e1 ⊢
          rw [e1]
          exact hk
      | ringing txn rq me key =>
        have := (afterRinging_cases c { st with tasks := st.tasks.remove id } id txn rq i me key).1
        simp only at this ⊢
        rw [this]
        exact h.waits
      | closing key =>
        simp only
        unfold dropWait
        split
        · exact fun e he => h.waits e (mem_remove he)
        · exact h.waits
      | cancel rq =>
        have := (afterCancel_cases { st with tasks := st.tasks.remove id } id rq).1
        simp only at this ⊢
        rw [this]
        exact h.waits
      | clearing k => exact fun e he => h.waits e (mem_remove he)
  · intro t htt
    unfold turn at htt
    cases ht : st.tasks.get id with
    | none => rw [ht] at htt; simp only at htt; rw [ht] at htt; cases htt
    | some task =>
      rw [ht] at htt
      have gone : ∀ t : Task, (st.tasks.remove id).get id = some t → Begun es t := by
        intro t h
        rw [Tbl.get_remove_self] at h
        cases h
      have put : ∀ (x : Task), Begun es x → ∀ t : Task, ((st.tasks.remove id).insert id x).get id = some t → Begun es t := by
        intro x hx t h
        rw [Tbl.get_insert_self] at h
        cases h
        exact hx
      cases task with
      | trying txn rq me =>
        simp only at htt
        rcases afterTrying_cases c { st with tasks := st.tasks.remove id } id txn rq i me with ⟨r, _, e1⟩ | ⟨_, e1 | e1⟩ <;> simp only at e1 <;> rw [e1] at htt
        · exact put (.ringing ..) (show Begun es (.trying txn rq me) from h.tasks id _ ht) t htt
        · exact gone t htt
        · exact put (.closing ..) trivial t htt
      | ringing txn rq me key =>
        simp only at htt
        rcases (afterRinging_cases c { st with tasks := st.tasks.remove id } id txn rq i me key).2 with e1 | e1 <;> simp only at e1 <;> rw [e1] at htt
        · exact gone t htt
        · exact put (.closing ..) trivial t htt
      | closing key =>
        simp only at htt
        rw [(dropWait_tasks _ key).1] at htt
        exact gone t htt
      | cancel rq =>
        simp only at htt
        rcases (afterCancel_cases { st with tasks := st.tasks.remove id } id rq).2 with e1 | ⟨_, _, e1⟩ <;> simp only at e1 <;> rw [e1] at htt
        · exact gone t htt
        · exact put (.clearing ..) trivial t htt
      | clearing k => exact gone t htt

theorem origins_step {c : Cfg} {es : List Ev} {st : St} (hg : Good st) (h : Origins es st) (e : Ev) : Origins (es ++ [e]) (step c st e).1 := by
  have h' : Origins (es ++ [e]) st := ⟨fun x hx => kept_more (h.waits x hx) e, fun id t ht => begun_more (h.tasks id t ht) e⟩
  cases e with
  | request txn rq i =>
    have hq : Quiet c txn rq st (dispatch c st txn rq i).1 := quiet_dispatch hg.named
    refine ⟨?_, ?_⟩
    · show ∀ x ∈ (dispatch c st txn rq i).1.waits, _
      rw [hq.waits]
      exact h'.waits
    · intro id t ht
      change (dispatch c st txn rq i).1.tasks.get id = some t at ht
      rcases hq.tasks with ⟨e1, _⟩ | ⟨t', hs, e1, _⟩
      · rw [e1] at ht; exact h'.tasks id t ht
      · rw [e1] at ht
        by_cases hx : id = st.next
        · subst hx
          rw [Tbl.get_insert_self] at ht
          cases ht
          rcases hs with ⟨me, rfl, hm, _⟩ | ⟨rfl, hm⟩
          · exact ⟨i, by simp, hm⟩
          · exact ⟨txn, i, by simp, hm⟩
        · rw [Tbl.get_insert_ne _ _ hx] at ht
          exact h'.tasks id t ht
  | turn id i => exact origins_turn h' id i
  | expired d =>
    show Origins _ (if c.timers then { st with dialogs := st.dialogs.remove d } else st)
    split
    · exact ⟨h'.waits, h'.tasks⟩
    · exact h'
  | sweep now => exact ⟨fun x hx => h'.waits x (List.mem_filter.mp hx).1, h'.tasks⟩

theorem origins_reach (c : Cfg) (es : List Ev) : Origins es (run c init es).1 := by
  suffices h : ∀ (es pre : List Ev), Origins pre (run c init pre).1 → Origins (pre ++ es) (run c init (pre ++ es)).1 from
    h es [] ⟨fun x hx => (by cases hx), fun id t ht => (by cases ht)⟩
  intro es
  induction es with
  | nil => intro pre h; simpa using h
  | cons e es ih =>
    intro pre h
    have := ih (pre ++ [e]) (by rw [run_snoc]; exact origins_step (good_reach c pre) h e)
    simpa using this

theorem mem_outputs (c : Cfg) (o : Out) : ∀ (es : List Ev) (st : St), o ∈ (run c st es).2 →
    ∃ a e b, es = a ++ e :: b ∧ o ∈ (step c (run c st a).1 e).2
  | [], _, h => by cases h
  | e :: es, st, h => by
    rw [run_cons] at h
    rcases List.mem_append.mp h with h | h
    · exact ⟨[], e, es, rfl, h⟩
    · obtain ⟨a, e', b, rfl, h2⟩ := mem_outputs c o es _ h
      exact ⟨e :: a, e', b, rfl, by rw [run_cons]; exact h2⟩

theorem put_get {l : List (String × Str)} (a b : List (String × Str)) (n : String) (v : Str) (e : l = a ++ (n, v) :: b) (hn : GoodName n)
    (hl : a.length < 200) (ha : ∀ p ∈ a, eqIgnoreCase p.1.toList n.toList = false) (hv : Fits v) : (putAll l .empty).get n.toList = some v := by
  rw [e]
  exact Bridge.putAll_get hn hv b a .empty (by simpa [Headers.empty] using hl) rfl ha

theorem terminated_get (w : Wait) :
    (Fits w.via → (terminated w).headers.get "Via".toList = some w.via) ∧ (Fits w.from → (terminated w).headers.get "From".toList = some w.from) ∧
    (Fits w.callId → (terminated w).headers.get "Call-ID".toList = some w.callId) ∧
    (Fits w.cseq → (terminated w).headers.get "CSeq".toList = some w.cseq) := by
  unfold terminated
  simp only
  refine ⟨put_get [] [("From", w.from), ("To", w.to), ("Call-ID", w.callId), ("CSeq", w.cseq), ("Content-Length", "0".toList)] "Via" w.via rfl
      (goodNames _ (by simp)) (by simp) (by simp),
    put_get [("Via", w.via)] [("To", w.to), ("Call-ID", w.callId), ("CSeq", w.cseq), ("Content-Length", "0".toList)] "From" w.from rfl
      (goodNames _ (by simp)) (by simp) ?_,
    put_get [("Via", w.via), ("From", w.from), ("To", w.to)] [("CSeq", w.cseq), ("Content-Length", "0".toList)] "Call-ID" w.callId rfl
      (goodNames _ (by simp)) (by simp) ?_,
    put_get [("Via", w.via), ("From", w.from), ("To", w.to), ("Call-ID", w.callId)] [("Content-Length", "0".toList)] "CSeq" w.cseq rfl
      (goodNames _ (by simp)) (by simp) ?_⟩
  · intro p hp; simp only [List.mem_singleton] at hp; subst hp; simp only; decide
  · intro p hp
    simp only [List.mem_cons, List.not_mem_nil, or_false] at hp
    rcases hp with rfl | rfl | rfl <;> simp only <;> decide
  · intro p hp
    simp only [List.mem_cons, List.not_mem_nil, or_false] at hp
    rcases hp with rfl | rfl | rfl | rfl <;> simp only <;> decide

/-- C119: no call is ended but by a CANCEL.  If the daemon ever sends a 487 then in the transaction of an INVITE it has received, with the
Via, From, Call-ID and CSeq of that INVITE; and it has received a CANCEL, whose Call-ID, CSeq number and From tag make up the same text as
those of the INVITE: they are the same ones unless there are colons in them.  It is assumed that the authenticator does not send 487. -/
theorem C119_only (c : Cfg) (es : List Ev) (t : Nat) (r : Response) (hf : ∀ x q i, .request x q i ∈ es → Fine q)
    (hg : ∀ x q i r, .request x q i ∈ es → i.gate = .refused r → r.code ≠ 487) (h : .final t r ∈ (run c init es).2) (hr : r.code = 487) :
    ∃ rq i cq x j cid num ft cid' num' ft', .request t rq i ∈ es ∧ rq.method = .invite ∧ .request x cq j ∈ es ∧ cq.method = .cancel ∧
      Call rq.headers cid num ft ∧ Call cq.headers cid' num' ft' ∧ cid ++ ':' :: num ++ ':' :: ft = cid' ++ ':' :: num' ++ ':' :: ft' ∧
      (':' ∉ num ∧ ':' ∉ ft ∧ ':' ∉ num' ∧ ':' ∉ ft' → cid = cid' ∧ num = num' ∧ ft = ft') ∧
      (∀ n ∈ ["Via", "From", "Call-ID", "CSeq"], ∃ v, First rq.headers n v ∧ First r.headers n v) := by
  obtain ⟨a, e, b, rfl, ho⟩ := mem_outputs c _ es init h
  have hor := origins_reach c a
  cases e with
  | request x q i => exact absurd hr (hg x q i r (by simp) (request_487 ho hr))
  | expired d => cases ho
  | sweep now => cases ho
  | turn id i =>
    obtain ⟨cq, k, w, h1, h2, h3, h4, h5⟩ := turn_487 ho hr
    obtain ⟨x, j, h6, h7⟩ := hor.tasks id _ h1
    obtain ⟨rq, i', k1, k2, k3, k4, k5, k6, k7⟩ := hor.waits (k, w) (Tbl.mem_of_get _ _ _ h3)
    obtain ⟨cid, num, ft, c1, c2⟩ := (keyOf_iff _ _).mp k3
    obtain ⟨cid', num', ft', c3, c4⟩ := (keyOf_iff _ _).mp h2
    have hfr : Fine rq := hf _ _ _ (by simp only [List.mem_append]; exact .inl k1)
    refine ⟨rq, i', cq, x, j, cid, num, ft, cid', num', ft', by rw [h4]; simp [k1], k2, by simp [h6], h7, c1, c3, by rw [← c2, ← c4],
      fun ⟨q1, q2, q3, q4⟩ => key_inj (by rw [← c2, ← c4]) q1 q3 q2 q4, ?_⟩
    subst h5
    obtain ⟨t1, t2, t3, t4⟩ := terminated_get w
    intro n hn
    simp only [List.mem_cons, List.not_mem_nil, or_false] at hn
    rcases hn with rfl | rfl | rfl | rfl
    · exact ⟨w.via, (first_iff _ _ _).mpr k4, (first_iff _ _ _).mpr (t1 (fits_first hfr k4))⟩
    · exact ⟨w.from, (first_iff _ _ _).mpr k5, (first_iff _ _ _).mpr (t2 (fits_first hfr k5))⟩
    · exact ⟨w.callId, (first_iff _ _ _).mpr k6, (first_iff _ _ _).mpr (t3 (fits_first hfr k6))⟩
    · exact ⟨w.cseq, (first_iff _ _ _).mpr k7, (first_iff _ _ _).mpr (t4 (fits_first hfr k7))⟩

end Siphon.Daemon
