import Verif.Relay.Lemmas
import Verif.Daemon.PropsCancel
import Verif.Daemon.PropsGuard
set_option linter.unusedSimpArgs false
/-!
# C126: requests passed on
-/
namespace Siphon.Relay
open HdrSpec TextSpec Spec MfSpec
open Siphon.Proxy (loopBranch addVia prependVia_iff C54_exactly viaValue checkMaxForwards addViaLoop detectLoopHashed)
open Siphon.Proxy.FwdSpec (ViaText SentBy BranchIs ViaName)
open Siphon.Dlg (first_iff)
open Siphon.Dlg.Spec (First)
open Siphon.Bridge (socketOf)
open Siphon.Daemon (Gate noHops exempt bare exempt_iff)
open Siphon.Daemon.Spec (Hops)

/-! ## The first Route value goes -/

theorem utf8Len_infix {a b c : Str} : utf8Len b ≤ utf8Len (a ++ b ++ c) := by
  unfold utf8Len
  simp only [List.map_append, List.sum_append_nat]
  omega

theorem oneLine_infix {a b c : Str} (h : OneLine (a ++ b ++ c)) : OneLine b := by
  unfold OneLine at *
  simp only [List.mem_append] at h
  exact ⟨fun x => h.1 (.inl (.inr x)), fun x => h.2.1 (.inl (.inr x)), fun x => h.2.2 (.inl (.inr x))⟩

/-- What is left of a value is a part of it. -/
theorem restOf_infix (v : Str) : ∃ a b, v = a ++ restOf v ++ b := by
  obtain ⟨a, b, h, _⟩ := (strips_trim (join ',' ((splitChar ',' v).drop 1)) _).mpr rfl
  have hv : v = join ',' (splitChar ',' v) := ((pieces_iff ',' v _).mpr rfl).2.1
  unfold restOf
  cases hs : splitChar ',' v with
  | nil => exact absurd hs ((pieces_iff ',' v _).mpr rfl).1
  | cons p ps =>
    rw [hs] at h hv
    cases ps with
    | nil =>
      refine ⟨v, [], ?_⟩
      have : trim (join ',' ([p].drop 1)) = [] := (show trim [] = [] by decide)
      rw [this]
      simp
    | cons q ps =>
      refine ⟨p ++ ',' :: a, b, ?_⟩
      simp only [List.drop_succ_cons, List.drop_zero] at h ⊢
      rw [hv]
      show p ++ ',' :: join ',' (q :: ps) = _
      calc p ++ ',' :: join ',' (q :: ps) = p ++ ',' :: (a ++ trim (join ',' (q :: ps)) ++ b) := congrArg (fun z => p ++ ',' :: z) h
        _ = _ := by simp

theorem rest_ok {h : Header} (hk : StoredOk h) : StoredOk ⟨h.name, restOf h.value⟩ := by
  obtain ⟨a, b, e⟩ := restOf_infix h.value
  refine ⟨⟨hk.1.1, ?_⟩, hk.2.1, ?_⟩
  · have := hk.1.2
    rw [e] at this
    exact oneLine_infix this
  · have := hk.2.2
    rw [e] at this
    exact Nat.le_trans utf8Len_infix this

theorem removeRoute_true : ∀ (l : List Header) (out : Headers), out.inner.length + l.length ≤ 200 → (∀ h ∈ l, StoredOk h) →
    removeRoute l true out = ⟨out.inner ++ l⟩
  | [], out, _, _ => by simp [removeRoute]
  | h :: t, out, hl, hk => by
    simp only [List.length_cons] at hl
    unfold removeRoute
    rw [if_neg (by simp), pushed_ok (by omega) (hk h (by simp)),
      removeRoute_true t _ (by simp only [List.length_append, List.length_cons, List.length_nil]; omega) (fun x hx => hk x (by simp [hx]))]
    simp

theorem removeRoute_eq : ∀ (l : List Header) (out : Headers), out.inner.length + l.length ≤ 200 → (∀ h ∈ l, StoredOk h) →
    (∃ h ∈ l, SameName h.name "Route".toList) → ∃ l', WithoutTopRoute l l' ∧ removeRoute l false out = ⟨out.inner ++ l'⟩
  | [], _, _, _, he => by obtain ⟨h, hh, _⟩ := he; cases hh
  | h :: t, out, hl, hk, he => by
    simp only [List.length_cons] at hl
    have hlen : (out.inner ++ [h]).length + t.length ≤ 200 := by
      simp only [List.length_append, List.length_cons, List.length_nil]; omega
    have hkt : ∀ x ∈ t, StoredOk x := fun x hx => hk x (by simp [hx])
    unfold removeRoute
    by_cases hn : eqIgnoreCase h.name "Route".toList = true
    · rw [if_pos (by rw [hn]; rfl)]
      have hs := (sameName_iff _ _).mpr hn
      obtain ⟨p, ps, hp⟩ : ∃ p ps, splitChar ',' h.value = p :: ps := by
        cases hc : splitChar ',' h.value with
        | nil => exact absurd hc ((pieces_iff ',' h.value _).mpr rfl).1
        | cons p ps => exact ⟨p, ps, rfl⟩
      have hpp : Pieces ',' h.value (p :: ps) := (pieces_iff _ _ _).mpr hp.symm
      have hst : Strips isWs (join ',' ps) (restOf h.value) := (strips_trim _ _).mpr (by unfold restOf; rw [hp]; rfl)
      cases hc : (restOf h.value).isEmpty with
      | true =>
        rw [if_pos rfl, removeRoute_true t out (by omega) hkt]
        exact ⟨t, ⟨[], h, t, p, ps, _, rfl, hs, by simp, hpp, hst, .inl ⟨List.isEmpty_iff.mp hc, rfl⟩⟩, rfl⟩
      | false =>
        rw [if_neg (by simp), pushed_ok (h := ⟨h.name, restOf h.value⟩) (by omega) (rest_ok (hk h (by simp))),
          removeRoute_true t _ (by simp only [List.length_append, List.length_cons, List.length_nil]; omega) hkt]
        refine ⟨⟨h.name, restOf h.value⟩ :: t, ⟨[], h, t, p, ps, _, rfl, hs, by simp, hpp, hst, .inr ⟨?_, rfl⟩⟩, by simp⟩
        intro e
        rw [e] at hc
        cases hc
    · rw [if_neg (by rw [Bool.not_eq_true] at hn; rw [hn]; simp), pushed_ok (by omega) (hk h (by simp))]
      have hs : ¬ SameName h.name "Route".toList := fun x => hn ((sameName_iff _ _).mp x)
      have he' : ∃ h ∈ t, SameName h.name "Route".toList := by
        obtain ⟨y, hy, hy'⟩ := he
        rcases List.mem_cons.mp hy with rfl | hy
        · exact absurd hy' hs
        · exact ⟨y, hy, hy'⟩
      obtain ⟨l', ⟨pre, r, post, p, ps, u, rfl, h2, h3, h4, h5, h6⟩, e⟩ := removeRoute_eq t ⟨out.inner ++ [h]⟩ hlen hkt he'
      refine ⟨h :: l', ⟨h :: pre, r, post, p, ps, u, rfl, h2, ?_, h4, h5, ?_⟩, by rw [e]; simp⟩
      · intro x hx
        rcases List.mem_cons.mp hx with rfl | hx
        · exact hs
        · exact h3 x hx
      · rcases h6 with ⟨a, rfl⟩ | ⟨a, rfl⟩
        · exact .inl ⟨a, rfl⟩
        · exact .inr ⟨a, rfl⟩

/-- The first header of a name is one. -/
theorem first_split_unique {P : Header → Prop} {a b c d : List Header} {x y : Header} (h : a ++ x :: b = c ++ y :: d) (hx : P x)
    (hy : P y) (ha : ∀ z ∈ a, ¬ P z) (hc : ∀ z ∈ c, ¬ P z) : a = c ∧ x = y ∧ b = d := by
  induction a generalizing c with
  | nil =>
    cases c with
    | nil => simp at h; exact ⟨rfl, h.1, h.2⟩
    | cons z c =>
      simp at h
      exact absurd (h.1 ▸ hx) (hc z (by simp))
  | cons w a ih =>
    cases c with
    | nil =>
      simp at h
      exact absurd (h.1.symm ▸ hy) (ha w (by simp))
    | cons z c =>
      simp at h
      obtain ⟨e, f, g⟩ := ih h.2 (fun z hz => ha z (by simp [hz])) (fun z hz => hc z (by simp [hz]))
      exact ⟨by rw [h.1, e], f, g⟩

theorem withoutTopRoute_unique {l a b : List Header} (ha : WithoutTopRoute l a) (hb : WithoutTopRoute l b) : a = b := by
  obtain ⟨pre, h, post, p, ps, t, rfl, h2, h3, h4, h5, h6⟩ := ha
  obtain ⟨pre', h', post', p', ps', t', e, g2, g3, g4, g5, g6⟩ := hb
  obtain ⟨rfl, rfl, rfl⟩ := first_split_unique (P := fun h => SameName h.name "Route".toList) e h2 g2 h3 g3
  have e1 := (pieces_iff _ _ _).mp h4
  rw [← (pieces_iff _ _ _).mp g4] at e1
  cases e1
  have e2 := (strips_trim _ _).mp h5
  rw [← (strips_trim _ _).mp g5] at e2
  cases e2
  rcases h6 with ⟨x, rfl⟩ | ⟨x, rfl⟩
  · rcases g6 with ⟨_, rfl⟩ | ⟨y, _⟩
    · rfl
    · exact absurd x y
  · rcases g6 with ⟨y, _⟩ | ⟨_, rfl⟩
    · exact absurd y x
    · rfl

/-! ## The whole -/

theorem mem_five {n : String} (h : n ∈ ["To", "From", "Call-ID", "CSeq"]) : n ∈ ["To", "From", "Call-ID", "CSeq", "Route"] :=
  List.mem_append_left ["Route"] h

/-- The request that has everything but its Route header put right. -/
theorem admitted_eq {c : Cfg} {rq : Request} {x : Ctx} (hi : HInv rq.headers) :
    (∃ b hs, Admitted c rq x b hs ∧ forward c plainOpts rq x = ⟨some b, route c plainOpts { rq with headers := ⟨hs⟩ }⟩ ∧
      (∀ h ∈ hs, StoredOk h) ∧ hs.length ≤ 200 ∧ Headers.get ⟨hs⟩ "Route".toList = rq.headers.get "Route".toList) ∨
    ((∀ b hs, ¬ Admitted c rq x b hs) ∧ forward c plainOpts rq x = ⟨none, none⟩) := by
  obtain ⟨l, hl, hs⟩ := stripAuth_eq rq.headers.inner .empty (by simpa [Headers.empty] using hi.1) hi.2
  replace hs : stripAuth rq.headers.inner .empty = ⟨l⟩ := hs
  have hf := names_free
  have hget : ∀ n ∈ ["To", "From", "Call-ID", "CSeq", "Route"], (Headers.mk l).get n.toList = rq.headers.get n.toList :=
    fun n hn => stripped_get hl (hf n hn).1 (hf n hn).2.1
  have hb : loopBranch c.sha { rq with headers := ⟨l⟩ } (proxyHost c) = loopBranch c.sha rq (proxyHost c) :=
    loopBranch_congr (r := rq) (s := { rq with headers := ⟨l⟩ }) _ rfl
      (fun n hn => hget n (mem_five hn))
  have hhost : ∀ b hs, Admitted c rq x b hs → ∃ l', b = loopBranch c.sha rq (proxyHost c) ∧
      (∀ h ∈ l, ViaName h → SentBy h.value (proxyHost c) → ¬ BranchIs h.value b) ∧ Lowered l l' ∧
      Fits (ViaText (proxyHost c) (viaName x.transport).toList b) ∧ l'.length < 200 ∧
      hs = ⟨"Via".toList, ViaText (proxyHost c) (viaName x.transport).toList b⟩ :: l' := by
    rintro b hs ⟨host, l0, l', h1, h2, h3, h4⟩
    have := (hostText_iff c host).mp h1
    subst this
    rw [← stripped_unique hl h3] at h4
    exact ⟨l', h2, h4.1, h4.2.1, h4.2.2.1, h4.2.2.2.1, h4.2.2.2.2⟩
  unfold forward
  simp only [hs]
  cases hd : detectLoopHashed c.sha { rq with headers := ⟨l⟩ } (proxyHost c) with
  | false =>
    right
    refine ⟨?_, by simp⟩
    intro b hs ha
    obtain ⟨l', e, h1, _⟩ := hhost b hs ha
    obtain ⟨h, hh, h2, h3, h4⟩ := (C54_exactly c.sha { rq with headers := ⟨l⟩ } (proxyHost c)).mp hd
    rw [hb, ← e] at h4
    exact h1 h hh h2 h3 h4
  | true =>
    simp only [Bool.not_true, Bool.false_eq_true, if_false]
    have hnl : ∀ h ∈ l, ViaName h → SentBy h.value (proxyHost c) → ¬ BranchIs h.value (loopBranch c.sha rq (proxyHost c)) := by
      intro h hh h2 h3 h4
      rw [← hb] at h4
      rw [(C54_exactly c.sha { rq with headers := ⟨l⟩ } (proxyHost c)).mpr ⟨h, hh, h2, h3, h4⟩] at hd
      cases hd
    cases hm : checkMaxForwards { rq with headers := ⟨l⟩ } with
    | none =>
      right
      refine ⟨?_, rfl⟩
      intro b hs ha
      obtain ⟨l', _, _, h2, _⟩ := hhost b hs ha
      rw [(checkMaxForwards_iff _ _).mpr ⟨l', h2, rfl⟩] at hm
      cases hm
    | some q =>
      obtain ⟨l', hlow, rfl⟩ := (checkMaxForwards_iff _ _).mp hm
      have hget' : ∀ n ∈ ["To", "From", "Call-ID", "CSeq", "Route"], (Headers.mk l').get n.toList = rq.headers.get n.toList :=
        fun n hn => (lowered_get hlow (hf n hn).2.2.1).trans (hget n hn)
      have hb' : loopBranch c.sha { rq with headers := ⟨l'⟩ } (proxyHost c) = loopBranch c.sha rq (proxyHost c) :=
        loopBranch_congr (r := rq) (s := { rq with headers := ⟨l'⟩ }) _ rfl
          (fun n hn => hget' n (mem_five hn))
      simp only
      unfold addViaLoop
      simp only [hb']
      cases hp : Proxy.prependVia { rq with headers := ⟨l'⟩ }
          (viaValue (proxyHost c) (transportName x.transport) (loopBranch c.sha rq (proxyHost c))) with
      | none =>
        right
        refine ⟨?_, rfl⟩
        intro b hs ha
        obtain ⟨l2, e, _, h2, h3, h4, _⟩ := hhost b hs ha
        rw [lowered_unique h2 hlow] at h4
        have := (prependVia_iff { rq with headers := ⟨l'⟩ } _ _).mpr ⟨h3.1, h3.2, h4, rfl⟩
        rw [e] at this
        rw [viaName_eq, show viaValue = ViaText from rfl, this] at hp
        cases hp
      | some q =>
        obtain ⟨h1, h2, h3, rfl⟩ := (prependVia_iff _ _ _).mp hp
        rw [viaName_eq, show viaValue = ViaText from rfl] at h1 h2
        left
        refine ⟨_, ⟨"Via".toList, viaValue (proxyHost c) (transportName x.transport) (loopBranch c.sha rq (proxyHost c))⟩ :: l',
          ⟨proxyHost c, l, l', (hostText_iff _ _).mpr rfl, rfl, hl, hnl, hlow, ⟨h1, h2⟩, h3, ?_⟩, rfl, ?_, ?_, ?_⟩
        · rw [viaName_eq]; rfl
        · intro h hh
          rcases List.mem_cons.mp hh with rfl | hh
          · refine ⟨⟨Proxy.token_via, ?_⟩, show utf8Len "Via".toList ≤ 128 by decide +kernel, ?_⟩
            · rw [viaName_eq]; exact h1
            · rw [viaName_eq]; exact h2
          · exact lowered_stored hlow (fun y hy => hi.2 y ((stripped_mem hl).1 y hy).1) h hh
        · exact h3
        · rw [get_cons, nameEq_not (h := ⟨"Via".toList, _⟩) (hf "Route" (by simp)).2.2.2]
          exact hget' "Route" (by simp)

theorem nextHop_congr {rq q : Request} (h1 : q.uri = rq.uri) (h2 : q.headers.get "Route".toList = rq.headers.get "Route".toList)
    (me : SipUri) : nextHop q me = nextHop rq me := by
  unfold nextHop firstRoute
  rw [h1, h2]

theorem route_there {hs : List Header} {rq : Request} {me u : SipUri}
    (hg : Headers.get ⟨hs⟩ "Route".toList = rq.headers.get "Route".toList) (h : NextHop rq me u true) :
    ∃ x ∈ hs, SameName x.name "Route".toList := by
  have ht : ∃ w, First rq.headers "Route" w := by
    cases h with
    | own a _ _ _ => obtain ⟨w, _, _, _, h, _⟩ := a; exact ⟨w, h⟩
    | ownOpaque a _ _ _ => obtain ⟨w, _, _, _, h, _⟩ := a; exact ⟨w, h⟩
  obtain ⟨w, hw⟩ := ht
  rw [first_iff, ← hg] at hw
  unfold Headers.get Headers.getHeader at hw
  obtain ⟨x, hx, _⟩ := Option.map_eq_some_iff.mp hw
  exact ⟨x, List.mem_of_find?_eq_some hx, (nameEq_iff _ _).mp (List.find?_some (p := fun h : Header => h.nameEq "Route".toList) hx)⟩

theorem route_iff (c : Cfg) (rq : Request) (hs : List Header) (hk : ∀ h ∈ hs, StoredOk h) (hl : hs.length ≤ 200)
    (hg : Headers.get ⟨hs⟩ "Route".toList = rq.headers.get "Route".toList) (d : Dest) (q : Request) :
    route c plainOpts { rq with headers := ⟨hs⟩ } = some (d, q) ↔ Sent c rq hs d q := by
  unfold route recordRoute plainOpts
  simp only [Bool.false_eq_true, if_false]
  cases hme : SipUri.parse c.localUri with
  | none =>
    simp only [reduceCtorEq, false_iff]
    rintro ⟨⟨me, u, own, k, h, _⟩, _⟩
    rw [hme] at h
    cases h
  | some me =>
    simp only
    rw [nextHop_congr (rq := rq) (q := { rq with headers := ⟨hs⟩ }) rfl hg]
    obtain ⟨u, own, hn⟩ : ∃ u own, nextHop rq me = (u, own) := ⟨(nextHop rq me).1, (nextHop rq me).2, rfl⟩
    have hnh := (nextHop_iff rq me u own).mpr hn
    rw [hn]
    simp only
    have hpl := fun k d => place_iff c (nextHop_parsed ⟨_, hme⟩ hnh) k d
    constructor
    · intro h
      cases ha : socketOf u with
      | none => rw [ha] at h; cases h
      | some a =>
        rw [ha] at h
        simp only at h
        obtain ⟨d', hd, e⟩ := Option.map_eq_some_iff.mp h
        have e1 := congrArg Prod.fst e
        have e2 := congrArg Prod.snd e
        simp only at e1 e2
        subst e1 e2
        have hplace := (hpl _ _).mpr ⟨a, ha, hd⟩
        cases own with
        | true =>
          obtain ⟨l', h1, h2⟩ := removeRoute_eq hs .empty (by simpa [Headers.empty] using hl) hk (route_there hg hnh)
          refine ⟨⟨me, u, true, _, rfl.trans hme, hnh, (carrier_iff u _).mpr rfl, hplace, .inl ⟨rfl, ?_⟩⟩, rfl, rfl, rfl⟩
          simp only [if_true]
          rw [h2]
          exact h1
        | false =>
          exact ⟨⟨me, u, false, _, rfl.trans hme, hnh, (carrier_iff u _).mpr rfl, hplace, .inr ⟨rfl, rfl⟩⟩, rfl, rfl, rfl⟩
    · rintro ⟨⟨me', u', own', k, h1, h2, h3, h4, h5⟩, hm, hu, hb⟩
      rw [hme] at h1
      cases h1
      have h2 := (nextHop_iff rq me u' own').mp h2
      rw [hn] at h2
      cases h2
      have hk' := (carrier_iff u k).mp h3
      subst hk'
      obtain ⟨a, ha, hd⟩ := (hpl _ _).mp h4
      rw [ha]
      simp only
      rw [hd, Option.map_some]
      have hq : ∀ l, q.headers.inner = l → q = { rq with headers := ⟨l⟩ } := by
        intro l hl
        cases q
        simp only at hm hu hb hl
        subst hm hu hb hl
        rfl
      rcases h5 with ⟨rfl, hw⟩ | ⟨rfl, hw⟩
      · obtain ⟨l', g1, g2⟩ := removeRoute_eq hs .empty (by simpa [Headers.empty] using hl) hk (route_there hg hnh)
        rw [if_pos rfl, hq _ (withoutTopRoute_unique hw g1), g2]
        rfl
      · rw [if_neg (by simp), hq _ hw]

/-- C126: a request is remembered under branch `b` exactly if the proxy admits it: it shows no loop, Max-Forwards is not used up and
there is room for a Via. -/
theorem C126_branch (c : Cfg) (rq : Request) (x : Ctx) (hi : HInv rq.headers) (b : Str) :
    (forward c plainOpts rq x).branch = some b ↔ ∃ hs, Admitted c rq x b hs := by
  rcases admitted_eq (c := c) (x := x) hi with ⟨b', hs, ha, e, _⟩ | ⟨hn, e⟩
  · rw [e]
    constructor
    · intro h; cases h; exact ⟨hs, ha⟩
    · rintro ⟨hs', ha'⟩
      obtain ⟨h1, l, _, g1, g2, _⟩ := ha
      obtain ⟨h1', l', _, g1', g2', _⟩ := ha'
      rw [(hostText_iff c _).mp g1] at g2
      rw [(hostText_iff c _).mp g1'] at g2'
      rw [g2, g2']
  · rw [e]
    constructor
    · intro h; cases h
    · rintro ⟨hs, h⟩; exact absurd h (hn _ _)

theorem admitted_unique {c : Cfg} {rq : Request} {x : Ctx} {b b' : Str} {hs hs' : List Header} (h : Admitted c rq x b hs)
    (h' : Admitted c rq x b' hs') : b = b' ∧ hs = hs' := by
  obtain ⟨host, l, m, g1, rfl, g3, _, g5, _, _, rfl⟩ := h
  obtain ⟨host', l', m', g1', rfl, g3', _, g5', _, _, rfl⟩ := h'
  have := ((hostText_iff c _).mp g1).trans ((hostText_iff c _).mp g1').symm
  subst this
  rw [stripped_unique g3 g3'] at g5
  rw [lowered_unique g5 g5']
  exact ⟨rfl, rfl⟩

/-- C126: what is sent for a request that is passed on, and where it is sent to: the request as it came, with the proxy's Via in front,
Max-Forwards one less, without credentials for the proxy and, if the first Route value is the proxy, without that; to the place that
the first Route value names if it is not the proxy itself, and otherwise to the place that the Request-URI names.  Otherwise nothing. -/
theorem C126_forward (c : Cfg) (rq : Request) (x : Ctx) (hi : HInv rq.headers) (d : Dest) (q : Request) :
    (forward c plainOpts rq x).sent = some (d, q) ↔ ∃ b hs, Admitted c rq x b hs ∧ Sent c rq hs d q := by
  rcases admitted_eq (c := c) (x := x) hi with ⟨b', hs, ha, e, hk, hl, hg⟩ | ⟨hn, e⟩
  · rw [e, route_iff c rq hs hk hl hg]
    constructor
    · intro h; exact ⟨b', hs, ha, h⟩
    · rintro ⟨b, hs', ha', h⟩
      rw [(admitted_unique ha ha').2]
      exact h
  · rw [e]
    constructor
    · intro h; cases h
    · rintro ⟨b, hs, h, _⟩; exact absurd h (hn _ _)

/-! ## The daemon -/

theorem noHops_hops (hs : Headers) : noHops hs = false ↔ Hops hs := by
  constructor
  · intro h v hv hd
    unfold noHops at h
    rw [(first_iff _ _ _).mp hv] at h
    simp only [decide_eq_false_iff_not] at h
    exact h ((parseDec_iff _ _ _).mpr ⟨hd, by simp [MAX_U32]⟩)
  · exact Daemon.noHops_iff hs

/-- The methods of the requests that are passed on. -/
theorem passed_iff (m : Method) : passed m = true ↔ m ∈ [Method.cancel, .bye, .prack, .update, .info, .message] := by
  unfold passed
  rw [List.contains_iff_mem]

theorem passOn_out (c : Cfg) (st : St) (rq : Request) (x : Ctx) (now : Nat) (hi : HInv rq.headers) :
    (∀ d q, (passOn c st rq x now).2 = [.request d q] ↔ ∃ b hs, Admitted c rq x b hs ∧ Sent c rq hs d q) ∧
    ((passOn c st rq x now).2 = [] ↔ ∀ b hs d q, Admitted c rq x b hs → ¬ Sent c rq hs d q) := by
  unfold passOn
  simp only
  cases hs : (forward c plainOpts rq x).sent with
  | none =>
    have hn : ∀ b hs d q, Admitted c rq x b hs → ¬ Sent c rq hs d q := by
      intro b l d q h1 h2
      rw [(C126_forward c rq x hi d q).mpr ⟨b, l, h1, h2⟩] at hs
      cases hs
    simp only
    constructor
    · intro d q
      constructor
      · intro h; cases h
      · rintro ⟨b, l, h1, h2⟩
        exact absurd h2 (hn _ _ _ _ h1)
    · exact ⟨fun _ => hn, fun _ => trivial⟩
  | some p =>
    obtain ⟨d, q⟩ := p
    simp only
    refine ⟨fun d' q' => ?_, ⟨fun h => (by cases h), fun h => ?_⟩⟩
    · rw [← C126_forward c rq x hi, hs]
      simp
    · obtain ⟨b, l, h1, h2⟩ := (C126_forward c rq x hi d q).mp hs
      exact absurd h2 (h _ _ _ _ h1)

/-- C126: the daemon as a proxy puts out one message for a request that is passed on, and otherwise nothing at all: a BYE, CANCEL,
PRACK, UPDATE, INFO or MESSAGE that it admits to its handler is never answered by it. -/
theorem C126_request (c : Cfg) (st : St) (txn : Nat) (rq : Request) (x : Ctx) (i : Info) (hi : HInv rq.headers)
    (hm : rq.method ∈ [Method.cancel, .bye, .prack, .update, .info, .message]) (hr : Reaches rq i.gate) :
    (∀ d q, (step c st (.request txn rq x i)).2 = [.request d q] ↔ ∃ b hs, Admitted c rq x b hs ∧ Sent c rq hs d q) ∧
    ((step c st (.request txn rq x i)).2 = [] ↔ ∀ b hs d q, Admitted c rq x b hs → ¬ Sent c rq hs d q) := by
  have e : step c st (.request txn rq x i) = passOn c st rq x i.now := by
    show dispatch c st txn rq x i = _
    unfold dispatch
    rw [(noHops_hops _).mpr hr.1]
    simp only [Bool.false_eq_true, if_false]
    have hg : (if exempt rq.method = true then Gate.pass else i.gate) = .pass := by
      by_cases he : exempt rq.method = true
      · rw [if_pos he]
      · rw [if_neg he]
        rcases hr.2 with h | h
        · exact h
        · exact absurd (by simp only [List.mem_cons, List.not_mem_nil, or_false] at h; unfold exempt; rcases h with h | h | h | h <;> simp [h]) he
    rw [hg]
    simp only
    have hni : rq.method ≠ .invite := by
      intro h
      rw [h] at hm
      simp at hm
    rw [if_neg hni, if_pos ((passed_iff _).mpr hm)]
  rw [e]
  exact passOn_out c st rq x i.now hi

/-- C126: the same for an ACK. -/
theorem C126_ack (c : Cfg) (st : St) (rq : Request) (x : Ctx) (now : Nat) (hi : HInv rq.headers) :
    (∀ d q, (step c st (.ack rq x now)).2 = [.request d q] ↔ ∃ b hs, Admitted c rq x b hs ∧ Sent c rq hs d q) ∧
    ((step c st (.ack rq x now)).2 = [] ↔ ∀ b hs d q, Admitted c rq x b hs → ¬ Sent c rq hs d q) :=
  passOn_out c st rq x now hi

end Siphon.Relay
