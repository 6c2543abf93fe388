import Verif.Relay.PropsResponse
import Verif.Dialog.UacLemmas
set_option linter.unusedSimpArgs false
/-!
# C128, C129: what comes back, and what cannot be matched
-/
namespace Siphon.Relay
open HdrSpec TextSpec Spec MfSpec
open Siphon.Proxy (loopBranch loopBranch_alnum alnum_plain hexEncode)
open Siphon.Proxy.FwdSpec (ViaText WithoutTopVia IsVia)
open Siphon.Dlg (first_iff selects_iff)
open Siphon.Dlg.Spec (First)

/-! ## The Via that was added -/

theorem viaName_plain (k : Manager.TransportKind) : ';' ∉ (viaName k).toList := by
  cases k <;> decide

theorem via_branch {hs : Headers} {host b : Str} {k : Manager.TransportKind} (hh : ';' ∉ host) (hb : ∀ c ∈ b, isAlnum c = true)
    (hf : First hs "Via" (ViaText host (viaName k).toList b)) : TopBranch hs b := by
  have hbs : ';' ∉ b := fun h => (alnum_plain (hb _ h)).2.1 rfl
  have hk := viaName_plain k
  refine ⟨_, ["SIP/2.0/".toList ++ (viaName k).toList ++ " ".toList ++ host], "branch=".toList ++ b, ["rport".toList], hf, ?_, by simp, ?_, ?_⟩
  · refine ⟨by simp, ?_, ?_⟩
    · unfold ViaText
      simp [join]
    · intro p hp
      simp only [List.cons_append, List.nil_append, List.mem_cons, List.not_mem_nil, or_false] at hp
      rcases hp with rfl | rfl | rfl
      · intro hc
        simp only [List.mem_append] at hc
        rcases hc with ((hc | hc) | hc) | hc
        · revert hc; decide
        · exact hk hc
        · revert hc; decide
        · exact hh hc
      · intro hc
        rcases List.mem_append.mp hc with hc | hc
        · revert hc; decide
        · exact hbs hc
      · decide
  · refine ⟨"branch".toList, b, "branch".toList, rfl, by decide, (strips_trim _ _).mpr (by decide), sameName_refl _, (strips_trim _ _).mpr ?_⟩
    exact (trim_of_trimmed _ (trimmed_of_all _ (fun c hc => (alnum_plain (hb c hc)).1))).symm
  · intro y hy
    cases hy

theorem topBranch_unique {hs : Headers} {b b' : Str} (h : TopBranch hs b) (h' : TopBranch hs b') : b = b' :=
  answers_unique (r := ⟨200, [], hs, []⟩) h h'

/-! ## The Vias -/

theorem getAll_cons (h : Header) (l : List Header) (n : Str) :
    (Headers.mk (h :: l)).getAll n = if h.nameEq n then h.value :: (Headers.mk l).getAll n else (Headers.mk l).getAll n := by
  unfold Headers.getAll
  simp only [List.filter_cons]
  cases h.nameEq n <;> simp

theorem getAll_append_congr {a b : List Header} {n : Str} (h : (Headers.mk a).getAll n = (Headers.mk b).getAll n) :
    ∀ pre : List Header, (Headers.mk (pre ++ a)).getAll n = (Headers.mk (pre ++ b)).getAll n
  | [] => h
  | x :: pre => by rw [List.cons_append, List.cons_append, getAll_cons, getAll_cons, getAll_append_congr h pre]

theorem getAll_other {x : Header} {n : Str} (hx : ¬ SameName x.name n) (l : List Header) :
    (Headers.mk (x :: l)).getAll n = (Headers.mk l).getAll n := by
  rw [getAll_cons, nameEq_not hx]
  rfl

theorem via_free : ¬ SameName "Proxy-Authorization".toList "Via".toList ∧ ¬ SameName "Proxy-Authenticate".toList "Via".toList ∧
    ¬ SameName "Max-Forwards".toList "Via".toList ∧ ¬ SameName "Route".toList "Via".toList ∧
    ¬ SameName "Record-Route".toList "Via".toList ∧ ¬ SameName "Via".toList "Route".toList := by
  simp only [sameName_iff]
  decide +kernel

theorem stripped_vias {l l' : List Header} (h : Stripped l l') :
    (Headers.mk l').getAll "Via".toList = (Headers.mk l).getAll "Via".toList := by
  induction h with
  | nil => rfl
  | drop hc _ ih =>
    rw [getAll_other, ih]
    intro hn
    rcases hc with hc | hc
    · exact via_free.1 (sameName_both hc hn)
    · exact via_free.2.1 (sameName_both hc hn)
  | keep _ _ ih => rw [getAll_cons, getAll_cons, ih]

theorem lowered_vias {l l' : List Header} (h : Lowered l l') :
    (Headers.mk l').getAll "Via".toList = (Headers.mk l).getAll "Via".toList := by
  rcases h with ⟨pre, x, post, k, rfl, hx, _, _, _, rfl⟩ | ⟨_, _, rfl⟩
  · have hf : ¬ SameName x.name "Via".toList := fun hh => via_free.2.2.1 (sameName_both hx hh)
    refine getAll_append_congr ?_ pre
    rw [getAll_other hf, getAll_other (x := ⟨x.name, showNat k⟩) hf]
  · have := getAll_append_congr (a := [⟨"Max-Forwards".toList, "69".toList⟩]) (b := []) (n := "Via".toList)
      (getAll_other (x := ⟨"Max-Forwards".toList, "69".toList⟩) via_free.2.2.1 []) l
    rw [this, List.append_nil]

theorem marked_vias {c : Cfg} {l l' : List Header} (h : Marked c l l') :
    (Headers.mk l').getAll "Via".toList = (Headers.mk l).getAll "Via".toList := by
  rcases h with ⟨me, v, _, _, _, _, rfl⟩ | ⟨_, rfl⟩
  · have := getAll_append_congr (a := [⟨"Record-Route".toList, v⟩]) (b := []) (n := "Via".toList)
      (getAll_other (x := ⟨"Record-Route".toList, v⟩) via_free.2.2.2.2.1 []) l
    rw [this, List.append_nil]
  · rfl

theorem unrouted_vias {l l' : List Header} (h : WithoutTopRoute l l') :
    (Headers.mk l').getAll "Via".toList = (Headers.mk l).getAll "Via".toList := by
  obtain ⟨pre, x, post, p, ps, t, rfl, h1, _, _, _, h6⟩ := h
  have hf : ¬ SameName x.name "Via".toList := fun hh => via_free.2.2.2.1 (sameName_both h1 hh)
  rcases h6 with ⟨_, rfl⟩ | ⟨_, rfl⟩
  · exact getAll_append_congr (getAll_other hf _).symm pre
  · refine getAll_append_congr ?_ pre
    rw [getAll_other hf, getAll_other (x := ⟨x.name, t⟩) hf]

theorem unrouted_first {v : Str} {l l' : List Header} (h : WithoutTopRoute (⟨"Via".toList, v⟩ :: l) l') :
    ∃ m, l' = ⟨"Via".toList, v⟩ :: m := by
  obtain ⟨pre, x, post, p, ps, t, e, h1, _, _, _, h6⟩ := h
  cases pre with
  | nil =>
    have hx : x = ⟨"Via".toList, v⟩ := by cases e; rfl
    subst hx
    exact absurd h1 via_free.2.2.2.2.2
  | cons y pre =>
    have hy : y = ⟨"Via".toList, v⟩ := by cases e; rfl
    subst hy
    rcases h6 with ⟨_, rfl⟩ | ⟨_, rfl⟩
    · exact ⟨_, rfl⟩
    · exact ⟨_, rfl⟩

theorem first_cons (v : Str) (l : List Header) : First ⟨⟨"Via".toList, v⟩ :: l⟩ "Via" v := by
  rw [first_iff, get_cons, (nameEq_iff _ _).mpr (sameName_refl _)]
  rfl

/-! ## What is sent is taken on -/

theorem sent_vias {c : Cfg} {rq q : Request} {hs : List Header} {d : Dest} (h : Sent c rq hs d q) {v : Str} {l : List Header}
    (e : hs = ⟨"Via".toList, v⟩ :: l) :
    First q.headers "Via" v ∧ q.headers.getAll "Via".toList = v :: (Headers.mk l).getAll "Via".toList := by
  have hc : (Headers.mk hs).getAll "Via".toList = v :: (Headers.mk l).getAll "Via".toList := by
    rw [e, getAll_cons, (nameEq_iff _ _).mpr (sameName_refl _)]
    rfl
  obtain ⟨⟨me, u, own, k, _, _, _, _, hw⟩, _⟩ := h
  rcases hw with ⟨_, hw⟩ | ⟨_, hw⟩
  · have h1 := unrouted_vias hw
    rw [e] at hw
    obtain ⟨m, hm⟩ := unrouted_first hw
    refine ⟨?_, h1.trans hc⟩
    show First ⟨q.headers.inner⟩ "Via" v
    rw [hm]
    exact first_cons v m
  · constructor
    · show First ⟨q.headers.inner⟩ "Via" v
      rw [hw, e]
      exact first_cons v l
    · show (Headers.mk q.headers.inner).getAll _ = _
      rw [hw]
      exact hc

theorem called_vias {c : Cfg} {rq q : Request} {hs : List Header} {d : Dest} {look : Str → List Str} (h : Calls c rq hs look d q) {v : Str}
    {l : List Header} (e : hs = ⟨"Via".toList, v⟩ :: l) :
    First q.headers "Via" v ∧ q.headers.getAll "Via".toList = v :: (Headers.mk l).getAll "Via".toList := by
  have hc : (Headers.mk hs).getAll "Via".toList = v :: (Headers.mk l).getAll "Via".toList := by
    rw [e, getAll_cons, (nameEq_iff _ _).mpr (sameName_refl _)]
    rfl
  have hm := h.headers
  refine ⟨?_, (marked_vias hm).trans hc⟩
  show First ⟨q.headers.inner⟩ "Via" v
  rcases hm with ⟨me, w, _, _, _, _, e'⟩ | ⟨_, e'⟩
  · rw [e', e]
    exact first_cons v _
  · rw [e', e]
    exact first_cons v _

theorem invite_sent {c : Cfg} {st : St} {txn : Nat} {rq : Request} {x : Ctx} {i : Info} {d : Dest} {q : Request}
    (h : Out.request d q ∈ (onInvite c st txn rq x i).2) :
    ∃ hs, Called c rq x i.branch hs ∧ Calls c rq hs i.look d q ∧
      ∃ r, Uas.createResponse rq.headers 100 "Trying".toList i.tag = .done r := by
  unfold onInvite at h
  cases hr : Uas.createResponse rq.headers 100 "Trying".toList i.tag with
  | panic => rw [hr] at h; simp at h
  | done t =>
    rw [hr] at h
    simp only at h
    rcases called_iff c rq x i.branch with ⟨hs, hc, p, e1, e2⟩ | ⟨hn, ⟨e1, _⟩ | ⟨p, e1, _, e2⟩⟩
    · rw [e1] at h
      simp only at h
      rw [e2] at h
      simp only [List.mem_cons, reduceCtorEq, false_or] at h
      have hp1 := place_call c rq hs i.look
      cases hp : place c rq { rq with headers := ⟨hs⟩ } i.look with
      | none => rw [hp] at h; simp at h
      | some y =>
        rw [hp] at h hp1
        cases y with
        | inl r => simp at h
        | inr y =>
          obtain ⟨d', q'⟩ := y
          simp only [List.mem_singleton] at h
          cases h
          exact ⟨hs, hc, (hp1 d q).mp rfl, ⟨t, rfl⟩⟩
    · rw [e1] at h; simp at h
    · rw [e1] at h
      simp only at h
      rw [e2] at h
      simp at h

theorem passed_sent {c : Cfg} {st : St} {rq : Request} {x : Ctx} {now : Nat} {d : Dest} {q : Request} (hi : HInv rq.headers)
    (h : Out.request d q ∈ (passOn c st rq x now).2) : ∃ b hs, Admitted c rq x b hs ∧ Sent c rq hs d q := by
  unfold passOn at h
  simp only at h
  cases hs : (forward c plainOpts rq x).sent with
  | none => rw [hs] at h; simp at h
  | some p =>
    obtain ⟨d', q'⟩ := p
    rw [hs] at h
    simp only [List.mem_singleton] at h
    cases h
    exact (C126_forward c rq x hi d q).mp hs

/-- Which of the two kinds a request that is sent is of. -/
theorem sent_cases {c : Cfg} {st : St} {txn : Nat} {rq : Request} {x : Ctx} {i : Info} {d : Dest} {q : Request} (hi : HInv rq.headers)
    (h : Out.request d q ∈ (step c st (.request txn rq x i)).2) :
    Reaches rq i.gate ∧ (rq.method = .invite ∧ (∃ hs, Called c rq x i.branch hs ∧ Calls c rq hs i.look d q) ∧
        Takes c i.branch x i.now (.request txn rq x i) ∨
      rq.method ∈ [Method.cancel, .bye, .prack, .update, .info, .message] ∧ ∃ b hs, Admitted c rq x b hs ∧ Sent c rq hs d q ∧
        Takes c b x i.now (.request txn rq x i)) := by
  change Out.request d q ∈ (dispatch c st txn rq x i).2 at h
  unfold dispatch at h
  have hg := gate_iff rq i.gate
  cases hn : Daemon.noHops rq.headers with
  | true => rw [hn] at h; simp at h
  | false =>
    rw [hn] at h hg
    simp only [Bool.false_eq_true, if_false] at h
    cases he : (if Daemon.exempt rq.method = true then Daemon.Gate.pass else i.gate) with
    | pass =>
      have hr := hg.mp ⟨rfl, he⟩
      refine ⟨hr, ?_⟩
      rw [he] at h
      simp only at h
      by_cases hm : rq.method = .invite
      · rw [if_pos hm] at h
        obtain ⟨hs, h1, h2, h3⟩ := invite_sent h
        exact .inl ⟨hm, ⟨hs, h1, h2⟩, .invite rfl hr hm rfl h3 h1⟩
      · rw [if_neg hm] at h
        by_cases hp : passed rq.method = true
        · rw [if_pos hp] at h
          obtain ⟨b, hs, h1, h2⟩ := passed_sent hi h
          exact .inr ⟨(passed_iff _).mp hp, b, hs, h1, h2, .passed rfl hr ((passed_iff _).mp hp) h1⟩
        · rw [if_neg hp] at h
          simp at h
    | refused r => rw [he] at h; simp at h
    | silent => rw [he] at h; simp at h

/-- C128: a request that is sent is taken on, with the branch of its top Via; behind that Via it has the Vias that it came with. -/
theorem C128_sent (c : Cfg) (hh : ∀ host, HostText c host → ';' ∉ host) (st : St) (e : Ev) (rq : Request) (x : Ctx) (t : Nat)
    (hb : Brings rq x t e) (hi : HInv rq.headers) (d : Dest) (q : Request) (h : Out.request d q ∈ (step c st e).2) :
    ∃ b v, Takes c b x t e ∧ TopBranch q.headers b ∧
      ∀ vs, Selects "Via".toList rq.headers.inner vs → Selects "Via".toList q.headers.inner (v :: vs) := by
  have hadm : ∀ b hs, Admitted c rq x b hs → Sent c rq hs d q → ∃ v, TopBranch q.headers b ∧
      ∀ vs, Selects "Via".toList rq.headers.inner vs → Selects "Via".toList q.headers.inner (v :: vs) := by
    intro b hs ha hsent
    obtain ⟨host, l, l', g1, g2, g3, _, g5, _, _, g8⟩ := ha
    obtain ⟨f1, f2⟩ := sent_vias hsent g8
    have hal : ∀ c ∈ b, isAlnum c = true := by rw [g2]; exact loopBranch_alnum _ _ _
    refine ⟨ViaText host (viaName x.transport).toList b, via_branch (hh host g1) hal f1, ?_⟩
    intro vs hvs
    rw [selects_iff] at hvs ⊢
    rw [f2, lowered_vias g5, stripped_vias g3, hvs]
  cases hb with
  | ack =>
    obtain ⟨b, hs, h1, h2⟩ := passed_sent hi h
    obtain ⟨v, h3, h4⟩ := hadm b hs h1 h2
    exact ⟨b, v, .ack h1, h3, h4⟩
  | @request txn i hn halnum =>
    subst hn
    rcases (sent_cases hi h).2 with ⟨_, ⟨hs, h1, h2⟩, h3⟩ | ⟨_, b, hs, h1, h2, h3⟩
    · obtain ⟨host, l, g1, g3, _, _, g8⟩ := h1
      obtain ⟨f1, f2⟩ := called_vias h2 g8
      refine ⟨i.branch, ViaText host (viaName x.transport).toList i.branch, h3, via_branch (hh host g1) halnum f1, ?_⟩
      intro vs hvs
      rw [selects_iff] at hvs ⊢
      rw [f2, lowered_vias g3, hvs]
    · obtain ⟨v, h4, h5⟩ := hadm b hs h1 h2
      exact ⟨b, v, h3, h4, h5⟩

theorem open_later {c : Cfg} {b : Str} {x : Ctx} {t : Nat} : ∀ (new : List Ev) {old : List Ev}, Open c b x t old →
    (∀ e ∈ new, (∀ y s, ¬ Takes c b y s e) ∧ ¬ Ends b t e) → Open c b x t (new ++ old)
  | [], _, h, _ => h
  | e :: new, _, h, hn =>
    .later (open_later new h (fun e he => hn e (by simp [he]))) (hn e (by simp)).1 (hn e (by simp)).2

theorem dropVia_getAll {l l' : List Header} {v : Str} {vs : List Str} (h : WithoutTopVia l l')
    (hs : Selects "Via".toList l (v :: vs)) : Selects "Via".toList l' vs := by
  rw [selects_iff "Via".toList ⟨l⟩] at hs
  rw [selects_iff "Via".toList ⟨l'⟩]
  have hpre : ∀ pre : List Header, (∀ x ∈ pre, ¬ IsVia x) → ∀ m, (Headers.mk (pre ++ m)).getAll "Via".toList = (Headers.mk m).getAll "Via".toList := by
    intro pre
    induction pre with
    | nil => intro _ _; rfl
    | cons y pre ih =>
      intro hy m
      rw [List.cons_append, getAll_other (hy y (by simp)), ih (fun z hz => hy z (by simp [hz]))]
  rcases h with ⟨pre, x, post, rfl, h2, h3, rfl⟩ | ⟨h1, rfl⟩
  · rw [hpre pre h3] at hs ⊢
    rw [getAll_cons, (nameEq_iff _ _).mpr h2] at hs
    exact (List.cons.inj hs).2
  · have := hpre l' h1 []
    rw [List.append_nil] at this
    rw [this] at hs
    cases hs

/-- C128: when a request was passed on, and then anything happened but another request with the same branch, a final response to it or
the clean-up five minutes later, a response with the Vias of what was sent goes back to where the request came from, with the Vias that
the request came with. -/
theorem C128_roundtrip (c : Cfg) (hh : ∀ host, HostText c host → ';' ∉ host) (before later : List Ev)
    (hs : ∀ e ∈ before ++ later, e.Stored) (e : Ev) (rq : Request) (x : Ctx) (t : Nat) (hb : Brings rq x t e) (hi : HInv rq.headers)
    (d : Dest) (q : Request) (h : Out.request d q ∈ (step c (run c init before) e).2)
    (hl : ∀ b, Takes c b x t e → ∀ e' ∈ later, (∀ y s, ¬ Takes c b y s e') ∧ ¬ Ends b t e')
    (r : Response) (hr : ∀ vs, Selects "Via".toList q.headers.inner vs → Selects "Via".toList r.headers.inner vs)
    (back : Dest) (hback : Back c x back) :
    ∃ r', (step c (run c init (before ++ e :: later)) (.response r)).2 = [.response back r'] ∧ Returned r r' ∧
      ∀ vs, Selects "Via".toList rq.headers.inner vs → Selects "Via".toList r'.headers.inner vs := by
  obtain ⟨b, v, h1, h2, h3⟩ := C128_sent c hh _ e rq x t hb hi d q h
  have hans : Answers r b := by
    obtain ⟨w, pre, p, post, g1, g2⟩ := h2
    refine ⟨w, pre, p, post, ?_, g2⟩
    obtain ⟨ws, hws⟩ := g1
    exact ⟨ws, hr _ hws⟩
  have hst : ∀ e' ∈ before ++ e :: later, e'.Stored := by
    intro e' he
    rcases List.mem_append.mp he with he | he
    · exact hs _ (by simp [he])
    · rcases List.mem_cons.mp he with rfl | he
      · cases hb <;> exact hi
      · exact hs _ (by simp [he])
  have hopen : Open c b x t (before ++ e :: later).reverse := by
    rw [List.reverse_append, List.reverse_cons, List.append_assoc]
    exact open_later later.reverse (.here h1) (fun e' he => hl b h1 e' (by simpa using he))
  refine ⟨{ r with headers := Proxy.removeTopVia r.headers }, ?_, ⟨rfl, rfl, rfl, (withoutTopVia_iff _ _).mpr rfl⟩, ?_⟩
  · exact (C128_response c _ hst r back _).mpr ⟨b, x, t, hans, hopen, hback, rfl, rfl, rfl, (withoutTopVia_iff _ _).mpr rfl⟩
  · intro vs hvs
    exact dropVia_getAll ((withoutTopVia_iff _ _).mpr rfl) (hr _ (h3 vs hvs))

/-! ## CANCEL and ACK -/

theorem hexEncode_length : ∀ l : Bytes, (hexEncode l).length = 2 * l.length
  | [] => rfl
  | b :: t => by
    simp only [hexEncode, List.length_cons, hexEncode_length t]
    omega

theorem loopBranch_length {sha : Bytes → Bytes} (hsha : ∀ m, 16 ≤ (sha m).length) (rq : Request) (host : Str) :
    (loopBranch sha rq host).length = 39 := by
  unfold loopBranch
  rw [List.length_append, hexEncode_length, List.length_take]
  have := hsha (Proxy.loopText (Proxy.orEmpty (rq.headers.get "To".toList))
    (Proxy.orEmpty (rq.headers.get "From".toList)) (Proxy.orEmpty (rq.headers.get "Call-ID".toList)) (Proxy.cseqWord rq.headers)
    rq.uri host)
  rw [Nat.min_eq_left this]
  rfl

/-- **C129: a CANCEL or an ACK that is passed on does not belong to the INVITE that was.**  Whatever INVITE the proxy sends, with a
branch as it draws one (23 characters), and whatever other request it sends, their top Vias have different branches, so that the next hop
cannot match them. -/
theorem C129_unmatched (c : Cfg) (hh : ∀ host, HostText c host → ';' ∉ host) (hsha : ∀ m, 16 ≤ (c.sha m).length)
    (st st' : St) (txn : Nat) (inv : Request) (x x' : Ctx) (i : Info) (hi : HInv inv.headers) (hm : inv.method = .invite)
    (hlen : i.branch.length = 23) (hal : ∀ c ∈ i.branch, isAlnum c = true) (d d' : Dest) (q q' : Request)
    (h : Out.request d q ∈ (step c st (.request txn inv x i)).2)
    (rq : Request) (hi' : HInv rq.headers) (e : Ev) (t : Nat) (hb : Brings rq x' t e) (hm' : rq.method ≠ .invite)
    (h' : Out.request d' q' ∈ (step c st' e).2) :
    ∀ b, TopBranch q.headers b → ¬ TopBranch q'.headers b := by
  intro b h1 h2
  obtain ⟨b1, _, t1, u1, _⟩ := C128_sent c hh st _ inv x i.now (.request rfl hal) hi d q h
  obtain ⟨b2, _, t2, u2, _⟩ := C128_sent c hh st' _ rq x' t hb hi' d' q' h'
  have e1 := topBranch_unique h1 u1
  have e2 := topBranch_unique h2 u2
  have l1 : b.length = 23 := by
    rw [e1]
    cases t1 with
    | passed _ _ hm2 _ => rw [hm] at hm2; simp at hm2
    | invite _ _ _ hbr _ _ => rw [← hbr]; exact hlen
  have hadm : ∀ hs, Admitted c rq x' b2 hs → b2.length = 39 := by
    rintro hs ⟨host, _, _, _, g, _⟩
    rw [g]
    exact loopBranch_length hsha rq host
  have l2 : b.length = 39 := by
    rw [e2]
    cases hb with
    | ack => cases t2 with | ack ha => exact hadm _ ha
    | request _ _ =>
      cases t2 with
      | passed _ _ _ ha => exact hadm _ ha
      | invite _ _ hm2 _ _ _ => exact absurd hm2 hm'
  omega

/-- C129: nor is its Request-URI the one that the INVITE was sent with: that is the callee's contact, while every other request is sent
with the Request-URI that it came with. -/
theorem C129_uri (c : Cfg) (st : St) (e : Ev) (rq : Request) (x : Ctx) (t : Nat) (hb : Brings rq x t e) (hi : HInv rq.headers)
    (hm : rq.method ≠ .invite) (d : Dest) (q : Request) (h : Out.request d q ∈ (step c st e).2) : q.uri = rq.uri ∧ q.method = rq.method := by
  cases hb with
  | ack =>
    obtain ⟨b, hs, _, h2⟩ := passed_sent hi h
    exact ⟨h2.uri, h2.method⟩
  | request _ _ =>
    rcases (sent_cases hi h).2 with ⟨hm', _⟩ | ⟨_, b, hs, _, h2, _⟩
    · exact absurd hm' hm
    · exact ⟨h2.uri, h2.method⟩

/-! ## Loops -/

/-- The proxy sends the request to `d`, and what it sends would be sent there again, and so on `n` times. -/
inductive Spec.Circulates (c : Cfg) (x : Ctx) (d : Dest) : Nat → Request → Prop
  | zero {rq} : Circulates c x d 0 rq
  | succ {n rq q} : (forward c plainOpts rq x).sent = some (d, q) → Circulates c x d n q → Circulates c x d (n + 1) rq

theorem stripped_total (l : List Header) : ∃ l', Stripped l l' := by
  induction l with
  | nil => exact ⟨[], .nil⟩
  | cons h l ih =>
    obtain ⟨l', hl⟩ := ih
    by_cases hc : Credential h
    · exact ⟨l', .drop hc hl⟩
    · exact ⟨h :: l', .keep hc hl⟩

/-- The first Max-Forwards is still the first when the credentials are gone. -/
theorem stripped_mf {l l' : List Header} (h : Stripped l l') : ∀ {pre x post}, l = pre ++ x :: post → IsMf x → (∀ y ∈ pre, ¬ IsMf y) →
    ∃ pre' post', l' = pre' ++ x :: post' ∧ ∀ y ∈ pre', ¬ IsMf y := by
  have hcred : ∀ x, Credential x → ¬ IsMf x := by
    have h1 : ¬ SameName "Proxy-Authorization".toList "Max-Forwards".toList := by simp only [sameName_iff]; decide +kernel
    have h2 : ¬ SameName "Proxy-Authenticate".toList "Max-Forwards".toList := by simp only [sameName_iff]; decide +kernel
    intro x hc hm
    rcases hc with hc | hc
    · exact h1 (sameName_both hc hm)
    · exact h2 (sameName_both hc hm)
  induction h with
  | nil => intro pre x post e; cases pre <;> cases e
  | drop hc _ ih =>
    intro pre x post e hx hp
    cases pre with
    | nil => cases e; exact absurd hx (hcred _ hc)
    | cons y pre => cases e; exact ih rfl hx (fun z hz => hp z (by simp [hz]))
  | @keep h l l' hc hl ih =>
    intro pre x post e hx hp
    cases pre with
    | nil => cases e; exact ⟨[], l', rfl, by simp⟩
    | cons y pre =>
      cases e
      obtain ⟨pre', post', e, h'⟩ := ih rfl hx (fun z hz => hp z (by simp [hz]))
      refine ⟨h :: pre', post', by rw [e]; rfl, ?_⟩
      intro z hz
      rcases List.mem_cons.mp hz with rfl | hz
      · exact hp _ (by simp)
      · exact h' z hz

/-- **C126 fails for a proxy whose URI has a port: it does not notice that a request goes round.**  A request without Route whose
Request-URI leads back to the proxy is sent by it, and what it sends is sent again when it arrives, as often as Max-Forwards says, as long
as there is room for the Vias. -/
theorem C126_circulates (c : Cfg) (x : Ctx) (me u : SipUri) (k : Manager.TransportKind) (d : Dest) (host : Str) (hme : SipUri.parse c.localUri = some me)
    (hhost : HostText c host) (hport : ':' ∈ host) (hk : Carrier u k) (hp : Place c u k d) : ∀ (n : Nat) (rq : Request),
    HInv rq.headers → SipUri.parse rq.uri = some u → rq.headers.get "Route".toList = none → n ≤ 255 → rq.headers.inner.length + n ≤ 200 →
    (∃ pre h post, rq.headers.inner = pre ++ h :: post ∧ IsMf h ∧ (∀ y ∈ pre, ¬ IsMf y) ∧ Says h.value n) →
    Fits (ViaText host (viaName x.transport).toList (loopBranch c.sha rq host)) →
    Circulates c x d n rq
  | 0, _, _, _, _, _, _, _, _ => .zero
  | n + 1, rq, hi, hu, hr, hn, hl, ⟨pre, m, post, e, hm, hpre, hs⟩, hfit => by
    obtain ⟨l, hst⟩ := stripped_total rq.headers.inner
    obtain ⟨pre', post', e', hpre'⟩ := stripped_mf hst e hm hpre
    have hlen := (stripped_mem hst).2
    have hlow : Lowered l (pre' ++ ⟨m.name, showNat n⟩ :: post') := .inl ⟨pre', m, post', n, e', hm, hpre', hs, hn, rfl⟩
    have hlen' : (pre' ++ (⟨m.name, showNat n⟩ : Header) :: post').length = l.length := by
      rw [e']
      simp only [List.length_append, List.length_cons]
    let via : Header := ⟨"Via".toList, ViaText host (viaName x.transport).toList (loopBranch c.sha rq host)⟩
    have hnoloop : ∀ h ∈ l, Proxy.FwdSpec.ViaName h → Proxy.FwdSpec.SentBy h.value host → ¬ Proxy.FwdSpec.BranchIs h.value (loopBranch c.sha rq host) := by
      intro h _ _ hsb _
      obtain ⟨w1, w2, ws, hp, hp', name, rest, _, _, e2, hn⟩ := hsb
      exact e2.2.2 name (by simp) (Proxy.not_same_colon hn hport)
    have hadm : Admitted c rq x (loopBranch c.sha rq host) (via :: (pre' ++ ⟨m.name, showNat n⟩ :: post')) :=
      ⟨host, l, _, hhost, rfl, hst, hnoloop, hlow, hfit, by omega, rfl⟩
    have hnh : NextHop rq me u false := by
      refine .direct ?_ hu
      rintro v r ⟨w, _, _, _, hw, _⟩
      rw [first_iff, show ("Route" : String).toList = "Route".toList from rfl, hr] at hw
      cases hw
    let q : Request := { rq with headers := ⟨via :: (pre' ++ ⟨m.name, showNat n⟩ :: post')⟩ }
    have hsent : Sent c rq (via :: (pre' ++ ⟨m.name, showNat n⟩ :: post')) d q :=
      ⟨⟨me, u, false, k, hme, hnh, hk, hp, .inr ⟨rfl, rfl⟩⟩, rfl, rfl, rfl⟩
    have hget : ∀ n ∈ ["To", "From", "Call-ID", "CSeq", "Route"], q.headers.get n.toList = rq.headers.get n.toList := by
      intro n hn
      have hf := names_free n hn
      show (Headers.mk (via :: _)).get _ = _
      rw [get_cons, nameEq_not (h := via) hf.2.2.2]
      exact (lowered_get hlow hf.2.2.1).trans (stripped_get hst hf.1 hf.2.1)
    have hbr : loopBranch c.sha q host = loopBranch c.sha rq host := loopBranch_congr host rfl (fun n hn => hget n (mem_five hn))
    refine .succ ((C126_forward c rq x hi d q).mpr ⟨_, _, hadm, hsent⟩) ?_
    refine C126_circulates c x me u k d host hme hhost hport hk hp n q ?_ hu ((hget "Route" (by simp)).trans hr) (by omega) ?_ ?_ ?_
    · refine ⟨?_, ?_⟩
      · show (via :: (pre' ++ (⟨m.name, showNat n⟩ : Header) :: post')).length ≤ 200
        rw [List.length_cons, hlen']
        omega
      · intro h hh
        rcases List.mem_cons.mp hh with rfl | hh
        · exact ⟨⟨Proxy.token_via, hfit.1⟩, show utf8Len "Via".toList ≤ 128 by decide +kernel, hfit.2⟩
        · exact lowered_stored hlow (fun y hy => hi.2 y ((stripped_mem hst).1 y hy).1) h hh
    · show (via :: (pre' ++ (⟨m.name, showNat n⟩ : Header) :: post')).length + n ≤ 200
      rw [List.length_cons, hlen']
      omega
    · refine ⟨via :: pre', ⟨m.name, showNat n⟩, post', rfl, hm, ?_, ⟨[], showNat n, [], by simp, by simp, by simp, decDigits_showNat n⟩⟩
      intro y hy
      rcases List.mem_cons.mp hy with rfl | hy
      · intro hmf
        have : ¬ SameName "Via".toList "Max-Forwards".toList := by simp only [sameName_iff]; decide +kernel
        exact this hmf
      · exact hpre' y hy
    · rw [hbr]
      exact hfit

end Siphon.Relay
