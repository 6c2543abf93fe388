import Verif.Bridge.Deliver
import Verif.Bridge.Cases
/-!
# C113: what the caller is answered

For every history of the back-to-back user agent: a request is never answered again after a final response; and the responses of a
call reach the caller in order, each as `Relayed` says, up to the first final one.
-/
namespace Siphon.Bridge
open HdrSpec TextSpec Spec
open Siphon.Dlg (Dialog DialogId Mgr copyHeader first_iff absent_iff)
open Siphon.Dlg.Spec (First Absent)

/-- **C113.** In any history no request gets an answer after a final one. -/
theorem C113_one_final (cfg : Cfg) (es : List Ev) (t : Nat) (rs : List Response) (h : Answers t (run cfg init es).2 rs) : OneFinal rs := by
  rw [answers_iff] at h
  subst h
  exact (fine_run cfg es init [] fine_init t).2.2

/-! ## Lemmas -/

theorem shape_run (cfg : Cfg) {M : Leg → Prop} (hM : ∀ l l', Static l l' → M l → M l') {t : Option Nat} {a b : Str} {rq : Request} {now : Nat} :
    ∀ (es : List Ev) (s : St), Shape M t a b s → (∀ e ∈ es, Leaves rq a b now e) → Shape M t a b (run cfg s es).1
  | [], _, h, _ => h
  | e :: es, s, h, he => by
    rw [run_cons]
    exact shape_run cfg hM es _ (shape_step hM h e (he e (by simp))) (fun x hx => he x (by simp [hx]))

theorem shape_init {a b : Str} : Shape (fun _ => False) none a b init := by
  refine ⟨?_, ?_, ?_, ?_⟩
  · intro e he; cases he
  · intro k c hk; cases hk
  · intro c hc; cases hc
  · intro k hk; cases hk

theorem relay_run {lg : Leg} {cfg : Cfg} {rq : Request} {a b : Str} {now t : Nat} (ha : Answerable rq) (hm : Fits (bracket cfg.localUri)) :
    ∀ (es : List Ev) (s : St) (arr rs : List Response), Shape (Mine rq a b now t) (some t) a b s →
      Relay cfg rq b t lg s arr rs → (∀ e ∈ es, Leaves rq a b now e) →
      Relay cfg rq b t lg (run cfg s es).1 (arr ++ es.flatMap (arrives b)) (rs ++ ans t (run cfg s es).2)
  | [], s, arr, rs, _, h, _ => by simpa [run, ans] using h
  | e :: es, s, arr, rs, hs, h, he => by
    rw [run_cons, List.flatMap_cons]
    have h1 := relay_step ha hm hs h e (he e (by simp))
    have h2 := relay_run ha hm es _ _ _ (shape_step mine_static hs e (he e (by simp))) h1 (fun x hx => he x (by simp [hx]))
    rw [ans_append, ← List.append_assoc, ← List.append_assoc]
    exact h2

/-- the INVITE that was passed on -/
theorem invite_placed {cfg : Cfg} {s : St} {rq : Request} {look : Lookup} {f : Fresh} {now i t : Nat} {r0 : Response}
    {addr : Sub.Addr × Nat} {inv : Request}
    (h : (step cfg s (.invite rq look f now i)).2 = [.reply t r0, .tcp addr inv]) :
    ∃ leg, placeCall cfg look f now s.next rq = .stored leg ∧ t = s.next ∧ r0.code = 100 ∧ inv = leg.invite ∧ socketOf leg.callee = some addr ∧
      (step cfg s (.invite rq look f now i)).1 =
        { s with next := s.next + 1, legs := s.legs.insert leg.outId leg, chans := s.chans.insert s.next ⟨leg.outId, [], true⟩ } := by
  simp only [step] at h ⊢
  unfold onInvite at h ⊢
  simp only at h ⊢
  split at h
  · cases h
  · split at h
    · cases h
    · exfalso
      unfold reinvite at h
      simp only at h
      split at h
      · split at h
        · cases h
        · cases h
      · cases h
  · split at h
    · cases h
    · rename_i hcr
      split at h
      · cases h
      · cases h
      · rename_i leg hp
        simp only [List.cons.injEq, Out.reply.injEq] at h
        obtain ⟨⟨h1, h2⟩, h3⟩ := h
        unfold sendTcp at h3
        split at h3
        · rename_i ad had
          simp only [List.cons.injEq, Out.tcp.injEq, and_true] at h3
          refine ⟨leg, hp, h1.symm, ?_, h3.2.symm, by rw [had, h3.1], ?_⟩
          · rw [← h2]; exact create_code hcr
          · simp only
        · cases h3

theorem upTo_append {done q upto : List Response} (hd : ∀ r ∈ done, r.code < 200) (h : UpToFinal (done ++ q) upto) :
    ∃ u, upto = done ++ u ∧ UpToFinal q u := by
  induction done generalizing upto with
  | nil => exact ⟨upto, rfl, h⟩
  | cons r done ih =>
    cases h with
    | final hr =>
      have := hd r (by simp)
      omega
    | more hr h =>
      obtain ⟨u, hu, hq⟩ := ih (fun x hx => hd x (by simp [hx])) h
      exact ⟨u, by rw [hu]; rfl, hq⟩

theorem upTo_final {done rest upto : List Response} {r : Response} (hd : ∀ r ∈ done, r.code < 200) (hr : 200 ≤ r.code)
    (h : UpToFinal (done ++ r :: rest) upto) : upto = done ++ [r] := by
  obtain ⟨u, hu, hq⟩ := upTo_append hd h
  cases hq with
  | final _ => exact hu
  | more h' _ => omega

/-- the responses that wait for the relay task of a call -/
def Waiting (s : St) (t n : Nat) : Prop := ∀ c, s.chans.get t = some c → c.live = true → c.queue.length ≤ n

theorem waiting_turn {cfg : Cfg} {s : St} {t n : Nat} (h : Waiting s t (n + 1)) : Waiting (onRelay cfg s t).1 t n := by
  have key : ∀ {s' : St} {c : Chan} {r : Response} {rest : List Response} {live : Bool}, s.chans.get t = some c → c.live = true →
      c.queue = r :: rest → s'.chans = s.chans.update t (fun c => { c with queue := rest, live := live }) → Waiting s' t n := by
    intro s' c r rest live hc hl hq hs' c' hc' hl'
    rw [hs', Tbl.get_update_self, hc] at hc'
    cases hc'
    have := h c hc hl
    rw [hq] at this
    simpa using this
  unfold onRelay
  split
  · rename_i hn
    intro c hc
    simp only at hc
    rw [hn] at hc
    cases hc
  · rename_i c hc
    split
    · rename_i r rest hl hq
      simp only
      split
      · exact key hc hl hq rfl
      · split
        · exact key hc hl hq rfl
        · exact key hc hl hq rfl
        · split
          · exact key hc hl hq rfl
          · split
            · exact key hc hl hq rfl
            · exact key hc hl hq rfl
    · rename_i hno
      intro c' hc' hl'
      simp only at hc'
      rw [hc] at hc'
      cases hc'
      cases hq : c.queue with
      | nil => simp
      | cons r rest => exact absurd hq (hno r rest hl')

theorem waiting_more {s : St} {t n m : Nat} (h : Waiting s t n) (hm : n ≤ m) : Waiting s t m :=
  fun c hc hl => Nat.le_trans (h c hc hl) hm

theorem waiting_turns {cfg : Cfg} {t : Nat} : ∀ (n : Nat) (s : St), Waiting s t n → Waiting (run cfg s (List.replicate n (.relay t))).1 t 0
  | 0, _, h => h
  | n + 1, s, h => by
    rw [List.replicate_succ, run_cons]
    exact waiting_turns n _ (waiting_turn h)

/-- the call after the INVITE and what followed, whether or not the INVITE was sent -/
theorem called_of {cfg : Cfg} {pre post : List Ev} {rq : Request} {look : Lookup} {f : Fresh} {now i : Nat} {r0 : Response} {leg : Leg}
    {a : Str} (hme : Fits (bracket cfg.localUri)) (ha : Answerable rq) (hid : First rq.headers "Call-ID" a)
    (hp : placeCall cfg look f now (run cfg init pre).1.next rq = .stored leg)
    (hst : (step cfg (run cfg init pre).1 (.invite rq look f now i)).1 =
      { (run cfg init pre).1 with next := (run cfg init pre).1.next + 1, legs := (run cfg init pre).1.legs.insert leg.outId leg, chans := (run cfg init pre).1.chans.insert (run cfg init pre).1.next ⟨leg.outId, [], true⟩ })
    (hcall : ans (run cfg init pre).1.next (step cfg (run cfg init pre).1 (.invite rq look f now i)).2 = [r0])
    (hothers : ∀ e ∈ pre ++ post, Leaves rq a f.callId now e) :
    ∃ rs, ans (run cfg init pre).1.next (run cfg init (pre ++ .invite rq look f now i :: post)).2 = r0 :: rs ∧
      Relay cfg rq f.callId (run cfg init pre).1.next leg (run cfg init (pre ++ .invite rq look f now i :: post)).1
        (post.flatMap (arrives f.callId)) rs := by
  have hpre : ∀ e ∈ pre, Leaves rq a f.callId now e := fun e he => hothers e (by simp [he])
  have hpost : ∀ e ∈ post, Leaves rq a f.callId now e := fun e he => hothers e (by simp [he])
  have h0 : Shape (fun _ => False) none a f.callId (run cfg init pre).1 :=
    shape_run cfg (fun _ _ _ h => h) pre init shape_init hpre
  generalize ht : (run cfg init pre).1.next = t at *
  have hf := fine_run cfg pre init [] fine_init t
  rw [List.nil_append] at hf
  obtain ⟨l1, l2, l3, l4, l5⟩ := placed_leg hp
  have hquiet := (hf.1 (by omega)).1
  rw [run_append, run_cons]
  generalize hs : (run cfg init pre).1 = s at *
  have hsh : Shape (Mine rq a f.callId now t) (some t) a f.callId (step cfg s (.invite rq look f now i)).1 := by
    rw [hst]
    refine ⟨?_, ?_, h0.cancels, ?_⟩
    · intro e he
      rcases mem_insert he with rfl | he
      · refine ⟨rfl, by simp only; omega, fun _ => ⟨l1, l2, l3 a hid, l4, l5⟩, fun e => absurd l1 e⟩
      · obtain ⟨h1, h2, h3, _⟩ := h0.legs e he
        refine ⟨h1, by simp only; omega, fun e => absurd (h3 e) id, ?_⟩
        intro _ e
        cases e
        omega
    · intro k c hk
      simp only at hk
      by_cases ek : k = t
      · refine ⟨by simp only; omega, fun hne => absurd (by rw [ek]) hne⟩
      · rw [Tbl.get_insert_ne _ _ ek] at hk
        obtain ⟨h1, h2⟩ := h0.chans k c hk
        exact ⟨by simp only; omega, fun _ => h2 (by simp)⟩
    · intro k hk
      cases hk
      simp only
      omega
  have hre : Relay cfg rq f.callId t leg (step cfg s (.invite rq look f now i)).1 [] [] := by
    rw [hst]
    refine .going [] [] ?_ ?_ rfl (by simp) .nil (by simp)
    · simp only
      rw [Tbl.get_insert_self, l1]
    · simp only
      rw [l1, Tbl.get_insert_self]
  have := relay_run ha hme post _ _ _ hsh hre hpost
  rw [List.nil_append, List.nil_append] at this
  refine ⟨_, ?_, this⟩
  rw [ans_append, hquiet, List.nil_append, ans_append, hcall]
  rfl

/-- the call after the INVITE and what followed -/
theorem called {cfg : Cfg} {pre post : List Ev} {rq : Request} {look : Lookup} {f : Fresh} {now i t : Nat} {r0 : Response}
    {addr : Sub.Addr × Nat} {inv : Request} {a : Str} (hme : Fits (bracket cfg.localUri)) (ha : Answerable rq)
    (hid : First rq.headers "Call-ID" a)
    (hcall : (step cfg (run cfg init pre).1 (.invite rq look f now i)).2 = [.reply t r0, .tcp addr inv])
    (hothers : ∀ e ∈ pre ++ post, Leaves rq a f.callId now e) :
    ∃ leg, placeCall cfg look f now t rq = .stored leg ∧ inv = leg.invite ∧ socketOf leg.callee = some addr ∧
      r0.code = 100 ∧ ∃ rs, ans t (run cfg init (pre ++ .invite rq look f now i :: post)).2 = r0 :: rs ∧
      Relay cfg rq f.callId t leg (run cfg init (pre ++ .invite rq look f now i :: post)).1 (post.flatMap (arrives f.callId)) rs := by
  obtain ⟨leg, hp, ht, hcode, hinv, hsock, hst⟩ := invite_placed hcall
  subst ht
  refine ⟨leg, hp, hinv, hsock, hcode, called_of hme ha hid hp hst ?_ hothers⟩
  rw [hcall, ans_reply]
  rfl

theorem arrives_relay (b : Str) (t : Nat) : ∀ n, (List.replicate n (Ev.relay t)).flatMap (arrives b) = []
  | 0 => rfl
  | n + 1 => by rw [List.replicate_succ, List.flatMap_cons, arrives_relay b t n]; rfl

/-! ## The responses of a call -/

/-- **C113.** A new call is passed on to the callee.  As long as nothing else ends it, the caller gets 100 and then, in order and
each once, the responses of the callee up to the first final one, or so far a first part of them. -/
theorem C113_in_order {cfg : Cfg} {pre post : List Ev} {rq : Request} {look : Lookup} {f : Fresh} {now i t : Nat} {r0 : Response}
    {addr : Sub.Addr × Nat} {inv : Request} {a : Str} {arr upto rs : List Response}
    (hme : Fits ('<' :: cfg.localUri ++ ">".toList)) (ha : Answerable rq) (hid : First rq.headers "Call-ID" a)
    (hcall : (step cfg (run cfg init pre).1 (.invite rq look f now i)).2 = [.reply t r0, .tcp addr inv])
    (hothers : ∀ e ∈ pre ++ post, Leaves rq a f.callId now e)
    (harr : Arrived f.callId post arr) (hup : UpToFinal arr upto)
    (hans : Answers t (run cfg init (pre ++ .invite rq look f now i :: post)).2 rs) :
    r0.code = 100 ∧ ∃ done todo rs', upto = done ++ todo ∧ rs = r0 :: rs' ∧ Each (Relayed cfg.localUri rq) done rs' := by
  obtain ⟨_, _, _, _, hc, rs', hrs, hrel⟩ := called hme ha hid hcall hothers
  rw [answers_iff] at hans
  rw [arrived_iff] at harr
  rw [← harr] at hrel
  refine ⟨hc, ?_⟩
  cases hrel with
  | going q done h1 h2 h3 h4 h5 h6 =>
    rw [h3] at hup
    obtain ⟨u, hu, _⟩ := upTo_append h4 hup
    exact ⟨done, u, rs', hu, hans.trans hrs, h5⟩
  | ended q done r rest h1 h2 h3 h4 h5 h6 =>
    rw [h2] at hup
    exact ⟨done ++ [r], [], rs', by rw [upTo_final h3 h4 hup]; simp, hans.trans hrs, h5⟩

/-- **C113.** Once the relay task of the call had as many turns more as responses arrived, all of them were answered. -/
theorem C113_delivered {cfg : Cfg} {pre post : List Ev} {rq : Request} {look : Lookup} {f : Fresh} {now i t n : Nat} {r0 : Response}
    {addr : Sub.Addr × Nat} {inv : Request} {a : Str} {arr upto rs : List Response}
    (hme : Fits ('<' :: cfg.localUri ++ ">".toList)) (ha : Answerable rq) (hid : First rq.headers "Call-ID" a)
    (hcall : (step cfg (run cfg init pre).1 (.invite rq look f now i)).2 = [.reply t r0, .tcp addr inv])
    (hothers : ∀ e ∈ pre ++ post, Leaves rq a f.callId now e)
    (harr : Arrived f.callId post arr) (hup : UpToFinal arr upto) (hn : arr.length ≤ n)
    (hans : Answers t (run cfg init (pre ++ .invite rq look f now i :: (post ++ List.replicate n (.relay t)))).2 rs) :
    ∃ rs', rs = r0 :: rs' ∧ Each (Relayed cfg.localUri rq) upto rs' := by
  have hothers' : ∀ e ∈ pre ++ (post ++ List.replicate n (.relay t)), Leaves rq a f.callId now e := by
    intro e he
    rcases List.mem_append.mp he with he | he
    · exact hothers e (by simp [he])
    · rcases List.mem_append.mp he with he | he
      · exact hothers e (by simp [he])
      · rw [(List.mem_replicate.mp he).2]
        trivial
  obtain ⟨_, _, _, _, _, _, _, hrel0⟩ := called hme ha hid hcall hothers
  obtain ⟨_, _, _, _, _, rs', hrs, hrel⟩ := called hme ha hid hcall hothers'
  rw [answers_iff] at hans
  rw [arrived_iff] at harr
  rw [List.flatMap_append, arrives_relay, List.append_nil] at hrel
  rw [← harr] at hrel hrel0
  -- what waits
  have hw : Waiting (run cfg init (pre ++ .invite rq look f now i :: post)).1 t n := by
    intro c hc hl
    cases hrel0 with
    | going q done h1 h2 h3 h4 h5 h6 =>
      rw [h1] at hc
      cases hc
      rw [h3] at hn
      simp only [List.length_append] at hn ⊢
      omega
    | ended q done r rest h1 h2 h3 h4 h5 h6 =>
      rw [h1] at hc
      cases hc
      cases hl
  have hw' := waiting_turns (cfg := cfg) n _ hw
  have hst : (run cfg init (pre ++ .invite rq look f now i :: (post ++ List.replicate n (.relay t)))).1 =
      (run cfg (run cfg init (pre ++ .invite rq look f now i :: post)).1 (List.replicate n (.relay t))).1 := by
    rw [show pre ++ .invite rq look f now i :: (post ++ List.replicate n (.relay t)) =
      (pre ++ .invite rq look f now i :: post) ++ List.replicate n (.relay t) by simp, run_append]
  rw [← hst] at hw'
  refine ⟨rs', hans.trans hrs, ?_⟩
  cases hrel with
  | going q done h1 h2 h3 h4 h5 h6 =>
    have : q = [] := by
      have := hw' _ h1 rfl
      simp only [Nat.le_zero, List.length_eq_zero_iff] at this
      exact this
    subst this
    rw [h3] at hup
    obtain ⟨u, hu, hq⟩ := upTo_append h4 hup
    cases hq
    rw [hu, List.append_nil]
    exact h5
  | ended q done r rest h1 h2 h3 h4 h5 h6 =>
    rw [h2] at hup
    rw [upTo_final h3 h4 hup]
    exact h5

/-! ## The hypotheses are met -/

namespace Cases

theorem inv_answerable : Answerable inv := by
  refine ⟨by decide, ?_, ?_, ?_, ?_, ?_⟩
  · unfold Fits OneLine
    decide
  · exact ⟨_, (first_iff _ _ _).mpr (by decide +kernel : inv.headers.get "Call-ID".toList = some "in1".toList)⟩
  · exact ⟨_, (first_iff _ _ _).mpr (by decide +kernel : inv.headers.get "From".toList = some "<sip:alice@10.0.0.1>;tag=A".toList),
      by unfold Ascii; decide⟩
  · exact ⟨_, (first_iff _ _ _).mpr (by decide +kernel : inv.headers.get "To".toList = some "<sip:bob@example.org>".toList),
      by unfold Ascii; decide⟩
  · exact ⟨_, (first_iff _ _ _).mpr (by decide +kernel : inv.headers.get "CSeq".toList = some "7 INVITE".toList)⟩

theorem lowTag_unique {v t t' : Str} (h : LowTag v t) (h' : LowTag v t') : t = t' := by
  have h := (toTag_some v t).mpr h
  rw [(toTag_some v t').mpr h'] at h
  cases h
  rfl

/-- `ringing`, `ok` and `busy` can be passed on to the caller -/
theorem resp_passable (c : Nat) (hc : 100 ≤ c) : Passable inv (resp c "1 INVITE" "<sip:bob@10.0.0.2:5080>;tag=C") := by
  have hto : (resp c "1 INVITE" "<sip:bob@10.0.0.2:5080>;tag=C").headers.get "To".toList = some "<sip:bob@10.0.0.2:5080>;tag=C".toList := by
    show (resp 0 "1 INVITE" "<sip:bob@10.0.0.2:5080>;tag=C").headers.get "To".toList = _
    decide +kernel
  have hfr : (resp c "1 INVITE" "<sip:bob@10.0.0.2:5080>;tag=C").headers.get "From".toList = some "<sip:alice@10.0.0.1>;tag=B".toList := by
    show (resp 0 "1 INVITE" "<sip:bob@10.0.0.2:5080>;tag=C").headers.get "From".toList = _
    decide +kernel
  refine ⟨?_, hc, by show 0 ≤ _; omega, ?_, ?_⟩
  · show ∀ h ∈ (resp 0 "1 INVITE" "<sip:bob@10.0.0.2:5080>;tag=C").headers.inner, Fits h.value
    unfold Fits OneLine
    decide
  · intro v hv t ht
    have e : v = "<sip:bob@example.org>".toList := by
      rw [first_iff] at hv
      have : inv.headers.get "To".toList = some "<sip:bob@example.org>".toList := by decide +kernel
      rw [this] at hv
      cases hv
      rfl
    have e' : t = "C".toList := by
      have h1 := (calleeTag_some _ t).mpr ht
      rw [hto] at h1
      have h2 : toTag "<sip:bob@10.0.0.2:5080>;tag=C".toList = some "C".toList := by decide +kernel
      rw [Option.bind_some, h2] at h1
      cases h1
      rfl
    subst e e'
    exact ⟨by unfold OneLine; decide, by decide⟩
  · intro v hv
    rcases hv with hv | hv
    · rw [first_iff, hfr] at hv
      cases hv
      unfold Ascii; decide
    · rw [first_iff, hto] at hv
      cases hv
      unfold Ascii; decide

/-- the INVITE goes to the callee -/
theorem call_placed : ∃ r0 addr out, (step me (run me init []).1 call).2 = [.reply 0 r0, .tcp addr out] := by
  have : (match (step me init call).2 with | [.reply 0 _, .tcp _ _] => true | _ => false) = true := by decide +kernel
  show ∃ r0 addr out, (step me init call).2 = [.reply 0 r0, .tcp addr out]
  split at this
  · rename_i h; exact ⟨_, _, _, h⟩
  · cases this

/-- ringing, then accepted, then a response that comes too late -/
def later : List Ev := [.response ringing, .response ok, .relay 0, .response busy]

theorem leaves_later : ∀ e ∈ [] ++ later, Leaves inv "in1".toList fr.callId 0 e := by
  intro e he
  simp only [List.nil_append, later, List.mem_cons, List.not_mem_nil, or_false] at he
  rcases he with rfl | rfl | rfl | rfl
  · exact fun _ => resp_passable 180 (by decide)
  · exact fun _ => resp_passable 200 (by decide)
  · trivial
  · exact fun _ => resp_passable 486 (by decide)

-- the caller gets 100, 180 and 200
example : ∃ rs', ans 0 (run me init ([] ++ call :: (later ++ List.replicate 3 (.relay 0)))).2 = rs' ∧
    ∃ r0 r1 r2, rs' = [r0, r1, r2] ∧ Relayed me.localUri inv ringing r1 ∧ Relayed me.localUri inv ok r2 := by
  obtain ⟨r0, addr, out, hc⟩ := call_placed
  obtain ⟨rs', h1, h2⟩ := C113_delivered (cfg := me) (pre := []) (post := later) (a := "in1".toList) (n := 3)
    (arr := [ringing, ok, busy]) (upto := [ringing, ok])
    ⟨by unfold OneLine; decide, by decide⟩ inv_answerable
    ((first_iff _ _ _).mpr (by decide +kernel)) hc leaves_later
    ((arrived_iff _ _ _).mpr (by decide +kernel)) (.more (by decide) (.final (by decide))) (by decide) ((answers_iff _ _ _).mpr rfl)
  refine ⟨_, h1, ?_⟩
  cases h2 with
  | cons ha hb =>
    cases hb with
    | cons hc hd =>
      cases hd
      exact ⟨_, _, _, rfl, ha, hc⟩

example : codes 0 (run me init (call :: later ++ List.replicate 3 (.relay 0))).2 = [100, 180, 200] := by decide +kernel

end Cases
end Siphon.Bridge
