import Verif.Proxy.PropsFork
import Verif.Core.MaxForwardsProps
import Verif.Base.Strip
/-!
# C53, C54, C72: what the proxy does to a request and to a response on its way
-/
set_option linter.unusedSimpArgs false
namespace Siphon.Proxy
open Spec HdrSpec TextSpec MfSpec

/-! ## The Via -/

theorem utf8Len_app (a b : Str) : utf8Len (a ++ b) = utf8Len a + utf8Len b := by
  simp [utf8Len, List.sum_append]

theorem mem_takeWhile {P : Char → Bool} : ∀ (s : Str), ∀ c ∈ s.takeWhile P, P c = true
  | [], _, h => by simp at h
  | x :: xs, c, h => by
    simp only [List.takeWhile] at h
    split at h
    · rename_i hx
      rcases List.mem_cons.mp h with rfl | h
      · exact hx
      · exact mem_takeWhile xs c h
    · simp at h

namespace FwdSpec

/-- The header is a Via header (full form). -/
def IsVia (h : Header) : Prop := SameName h.name "Via".toList

/-- The text of the Via this proxy adds. -/
def ViaText (host transport branch : Str) : Str :=
  "SIP/2.0/".toList ++ transport ++ " ".toList ++ host ++ ";branch=".toList ++ branch ++ ";rport".toList

/-- `l'` is `l` without its first Via. -/
def WithoutTopVia (l l' : List Header) : Prop :=
  (∃ pre h post, l = pre ++ h :: post ∧ IsVia h ∧ (∀ x ∈ pre, ¬ IsVia x) ∧ l' = pre ++ post) ∨
  ((∀ h ∈ l, ¬ IsVia h) ∧ l' = l)

end FwdSpec
open FwdSpec

theorem viaText_eq (host transport branch : Str) : viaValue host transport branch = ViaText host transport branch := rfl

theorem token_via : Token "Via".toList := ((validateHeaderName_ok_iff "Via".toList).mp (by decide +kernel)).1

/-- Putting a Via in front succeeds exactly when its text is a legal value and there is room. -/
theorem prependVia_iff (r r' : Request) (v : Str) :
    prependVia r v = some r' ↔ OneLine v ∧ utf8Len v ≤ 8192 ∧ r.headers.inner.length < 200 ∧
      r' = { r with headers := ⟨⟨"Via".toList, v⟩ :: r.headers.inner⟩ } := by
  unfold prependVia
  cases hn : Header.new "Via".toList v with
  | error e =>
    simp only
    constructor
    · intro h; cases h
    · rintro ⟨h1, h2, _⟩
      have := (header_new_ok_iff "Via".toList v _).mpr ⟨rfl, token_via, by decide +kernel, h1, h2⟩
      rw [this] at hn; cases hn
  | ok h =>
    obtain ⟨rfl, _, _, h1, h2⟩ := (header_new_ok_iff _ _ _).mp hn
    simp only [Headers.tryFromIter]
    by_cases hl : (⟨"Via".toList, v⟩ :: r.headers.inner : List Header).length > MAX_HEADERS
    · rw [if_pos hl]
      simp only [MAX_HEADERS, List.length_cons] at hl
      constructor
      · intro h; cases h
      · rintro ⟨_, _, h, _⟩; omega
    · rw [if_neg hl]
      simp only [MAX_HEADERS, List.length_cons] at hl
      simp only [Option.some.injEq]
      constructor
      · rintro rfl; exact ⟨h1, h2, by omega, rfl⟩
      · rintro ⟨_, _, _, h⟩; exact h.symm

theorem dropFirst_spec (n : Str) : ∀ l : List Header,
    (∃ pre h post, l = pre ++ h :: post ∧ SameName h.name n ∧ (∀ x ∈ pre, ¬ SameName x.name n) ∧
      dropFirst n l = pre ++ post) ∨ ((∀ h ∈ l, ¬ SameName h.name n) ∧ dropFirst n l = l)
  | [] => .inr ⟨by simp, rfl⟩
  | x :: t => by
    by_cases hc : x.nameEq n = true
    · exact .inl ⟨[], x, t, rfl, (nameEq_iff _ _).mp hc, by simp, by simp [dropFirst, hc]⟩
    · have hc' : ¬ SameName x.name n := fun h => hc ((nameEq_iff _ _).mpr h)
      have e : dropFirst n (x :: t) = x :: dropFirst n t := by simp [dropFirst, hc]
      rcases dropFirst_spec n t with ⟨pre, h, post, h1, h2, h3, h4⟩ | ⟨h1, h2⟩
      · refine .inl ⟨x :: pre, h, post, by simp [h1], h2, ?_, by rw [e, h4]; rfl⟩
        intro y hy
        rcases List.mem_cons.mp hy with rfl | hy
        · exact hc'
        · exact h3 y hy
      · refine .inr ⟨?_, by rw [e, h2]⟩
        intro y hy
        rcases List.mem_cons.mp hy with rfl | hy
        · exact hc'
        · exact h1 y hy

/-- **C53, exact effect.**  Preparing a response removes its first Via and nothing else. -/
theorem C53_removes (r : Response) :
    WithoutTopVia r.headers.inner (prepareResponse r).headers.inner ∧ (prepareResponse r).code = r.code ∧
      (prepareResponse r).reason = r.reason ∧ (prepareResponse r).body = r.body := by
  refine ⟨?_, rfl, rfl, rfl⟩
  rcases dropFirst_spec "Via".toList r.headers.inner with ⟨pre, h, post, h1, h2, h3, h4⟩ | ⟨h1, h2⟩
  · exact .inl ⟨pre, h, post, h1, h2, h3, h4⟩
  · exact .inr ⟨h1, h2⟩

/-- **C53, round trip.**  Removing the top Via from the headers of a forwarded request gives back the headers
it came with. -/
theorem C53_undo (r r' : Request) (host transport branch : Str) (h : addVia r host transport branch = some r') :
    removeTopVia r'.headers = r.headers ∧
      r'.headers.inner = ⟨"Via".toList, ViaText host transport branch⟩ :: r.headers.inner ∧
      r'.method = r.method ∧ r'.uri = r.uri ∧ r'.body = r.body := by
  obtain ⟨_, _, _, rfl⟩ := (prependVia_iff _ _ _).mp h
  refine ⟨?_, rfl, rfl, rfl, rfl⟩
  show Headers.mk (dropFirst "Via".toList (⟨"Via".toList, viaValue host transport branch⟩ :: r.headers.inner)) = r.headers
  have : Header.nameEq ⟨"Via".toList, viaValue host transport branch⟩ "Via".toList = true :=
    (nameEq_iff _ _).mpr (sameName_refl _)
  simp only [dropFirst, this, if_true]

theorem selects_cons_iff {n : Str} {h : Header} {l : List Header} {vs : List Str} (hm : SameName h.name n) :
    Selects n (h :: l) vs ↔ ∃ t, vs = h.value :: t ∧ Selects n l t := by
  constructor
  · intro hs
    cases hs with
    | take _ hs => exact ⟨_, rfl, hs⟩
    | skip hn _ => exact absurd hm hn
  · rintro ⟨t, rfl, ht⟩; exact .take hm ht

theorem selects_append_none {n : Str} : ∀ {pre : List Header} {l : List Header} {vs : List Str},
    (∀ x ∈ pre, ¬ SameName x.name n) → (Selects n (pre ++ l) vs ↔ Selects n l vs)
  | [], _, _, _ => Iff.rfl
  | x :: pre, l, vs, h => by
    have ih := selects_append_none (n := n) (pre := pre) (l := l) (vs := vs) (fun y hy => h y (by simp [hy]))
    rw [← ih]
    constructor
    · intro hs
      cases hs with
      | take hm _ => exact absurd hm (h x (by simp))
      | skip _ hs => exact hs
    · intro hs; exact .skip (h x (by simp)) hs

/-- **C53.**  If a response carries the Vias of the forwarded request, as a response must, then after the proxy
has prepared it, it carries the Vias the request came with. -/
theorem C53_response_path (r r' : Request) (host transport branch : Str) (resp : Response)
    (h : addVia r host transport branch = some r') (vias : List Str)
    (hreq : Selects "Via".toList r'.headers.inner vias) (hresp : Selects "Via".toList resp.headers.inner vias) :
    ∃ vs, Selects "Via".toList r.headers.inner vs ∧ Selects "Via".toList (prepareResponse resp).headers.inner vs := by
  obtain ⟨_, hin, _⟩ := C53_undo r r' host transport branch h
  rw [hin] at hreq
  obtain ⟨vs, rfl, hvs⟩ := (selects_cons_iff (n := "Via".toList) (sameName_refl "Via".toList)).mp hreq
  refine ⟨vs, hvs, ?_⟩
  rcases (C53_removes resp).1 with ⟨pre, x, post, e1, e2, e3, e4⟩ | ⟨hno, _⟩
  · rw [e1, selects_append_none e3] at hresp
    obtain ⟨t, et, ht⟩ := (selects_cons_iff e2).mp hresp
    rw [e4, selects_append_none e3]
    simp only [List.cons.injEq] at et
    rw [et.2]; exact ht
  · exfalso
    have := (selects_append_none (n := "Via".toList) (pre := resp.headers.inner) (l := []) hno
      (vs := ViaText host transport branch :: vs)).mp (by simpa using hresp)
    cases this

/-- **C53, panic.**  Adding a Via to a request that already has 200 headers stops the task with a panic. -/
theorem C53_full_panics (r : Request) (host transport branch : Str) (h : 200 ≤ r.headers.inner.length) :
    addVia r host transport branch = none := by
  cases ha : addVia r host transport branch with
  | none => rfl
  | some r' =>
    obtain ⟨_, _, hl, _⟩ := (prependVia_iff _ _ _).mp ha
    omega

/-- **C53 fails for Vias joined on one line.**  A response that carries them as `Via: ours, theirs` loses both. -/
theorem C53_joined :
    (prepareResponse (Response.mk 200 "OK".toList
      ⟨[⟨"Via".toList, "SIP/2.0/UDP proxy;branch=z9hG4bKp, SIP/2.0/UDP client;branch=z9hG4bKc".toList⟩]⟩ [])).headers.inner = [] := by
  decide +kernel

/-! ## C72: forwarding a request -/

/-- `v` is the Record-Route value for a proxy URI: the URI in angle brackets, with `lr` added if it lacks it. -/
def FwdSpec.RecordRouteText (u : SipUri) (v : Str) : Prop :=
  ((∃ e ∈ u.params, SameName e.1 "lr".toList) ∧ v = "<".toList ++ u.raw ++ ">".toList) ∨
  ((∀ e ∈ u.params, ¬ SameName e.1 "lr".toList) ∧ v = "<".toList ++ u.raw ++ ";lr>".toList)

/-- The headers added at the end. -/
def FwdSpec.Tail (recordRoute : Bool) (u : Option SipUri) (l : List Header) : Prop :=
  (∃ p v, recordRoute = true ∧ u = some p ∧ RecordRouteText p v ∧ l = [⟨"Record-Route".toList, v⟩]) ∨
  ((recordRoute = false ∨ u = none) ∧ l = [])

theorem addRecordRoute_some {r r' : Request} {u : SipUri} (h : addRecordRoute r u = some r') :
    ∃ v, RecordRouteText u v ∧ r' = { r with headers := ⟨r.headers.inner ++ [⟨"Record-Route".toList, v⟩]⟩ } := by
  unfold addRecordRoute at h
  simp only at h
  split at h
  · cases h
  · rename_i hs hp
    cases h
    have := C24_push _ _ _ _ hp
    refine ⟨_, ?_, by rw [← this]⟩
    by_cases hc : (u.params.any fun e => eqIgnoreCase e.1 "lr".toList) = true
    · rw [if_pos hc]
      obtain ⟨e, he, hs⟩ := List.any_eq_true.mp hc
      exact .inl ⟨⟨e, he, (sameName_iff _ _).mpr hs⟩, rfl⟩
    · rw [if_neg hc]
      refine .inr ⟨?_, rfl⟩
      intro e he hs
      exact hc (List.any_eq_true.mpr ⟨e, he, (sameName_iff _ _).mp hs⟩)

/-- **C72.**  A request that `prepare_forward` returns is the one given to it with the new Request-URI, with
Max-Forwards lowered as in C25, with the proxy's Via in front of all headers and, if asked, one Record-Route
behind them; method, body and every other header are unchanged and in the same order. -/
theorem C72_forwarded (r q : Request) (target host transport : Str) (rr : Bool) (u : Option SipUri) (branch : Str)
    (h : prepareForward r target host transport rr u branch = .ok q) :
    q.method = r.method ∧ q.uri = target ∧ q.body = r.body ∧
    ∃ v out tail, decrementMaxForwards r.headers = .ok (v, out) ∧ Tail rr u tail ∧
      q.headers.inner = ⟨"Via".toList, ViaText host transport branch⟩ :: out.inner ++ tail := by
  unfold prepareForward at h
  cases hd : decrementMaxForwards r.headers with
  | error e =>
    simp only [checkMaxForwards, hd] at h
    cases h
  | ok p =>
    obtain ⟨v, out⟩ := p
    simp only [checkMaxForwards, hd] at h
    cases ha : addVia { method := r.method, uri := target, headers := out, body := r.body } host transport branch with
    | none => simp only [ha] at h; cases h
    | some r1 =>
      simp only [ha] at h
      obtain ⟨_, _, _, e1⟩ := (prependVia_iff _ _ _).mp ha
      subst e1
      cases rr with
      | false =>
        simp only [Res.ok.injEq] at h
        subst h
        exact ⟨rfl, rfl, rfl, v, out, [], rfl, .inr ⟨.inl rfl, rfl⟩, (List.append_nil _).symm⟩
      | true =>
        cases u with
        | none =>
          simp only [Res.ok.injEq] at h
          subst h
          exact ⟨rfl, rfl, rfl, v, out, [], rfl, .inr ⟨.inr rfl, rfl⟩, (List.append_nil _).symm⟩
        | some p =>
          simp only at h
          split at h
          · cases h
          · rename_i r2 hr
            simp only [Res.ok.injEq] at h
            subst h
            obtain ⟨w, hw, e⟩ := addRecordRoute_some hr
            subst e
            exact ⟨rfl, rfl, rfl, v, out, _, rfl, .inl ⟨p, w, rfl, rfl, hw, rfl⟩, rfl⟩

/-- `prepare_forward` reports an error exactly when Max-Forwards forbids forwarding. -/
theorem C72_refused (r : Request) (target host transport : Str) (rr : Bool) (u : Option SipUri) (branch : Str) :
    prepareForward r target host transport rr u branch = .err ↔ ∃ e, decrementMaxForwards r.headers = .error e := by
  unfold prepareForward
  cases hd : decrementMaxForwards r.headers with
  | error e => simp [checkMaxForwards, hd]
  | ok p =>
    simp only [checkMaxForwards, hd]
    constructor
    · intro h
      split at h
      · cases h
      · split at h
        · split at h <;> cases h
        · cases h
    · rintro ⟨e, he⟩; cases he

/-- `prepare_forward` succeeds whenever Max-Forwards allows it, the texts are legal header values and there is
room for them. -/
theorem C72_succeeds (r : Request) (target host transport : Str) (rr : Bool) (u : Option SipUri) (branch : Str)
    (v : Nat) (out : Headers) (hd : decrementMaxForwards r.headers = .ok (v, out))
    (hl : OneLine (ViaText host transport branch)) (hlen : utf8Len (ViaText host transport branch) ≤ 8192)
    (hu : ∀ p, u = some p → OneLine p.raw ∧ utf8Len p.raw ≤ 8186) (hroom : out.inner.length + 2 ≤ 200) :
    ∃ q, prepareForward r target host transport rr u branch = .ok q := by
  unfold prepareForward
  simp only [checkMaxForwards, hd]
  have ha : addVia { method := r.method, uri := target, headers := out, body := r.body } host transport branch =
      some { method := r.method, uri := target, headers := ⟨⟨"Via".toList, viaValue host transport branch⟩ :: out.inner⟩, body := r.body } :=
    (prependVia_iff _ _ _).mpr ⟨hl, hlen, by simp only; omega, rfl⟩
  rw [ha]
  simp only
  cases rr with
  | false => exact ⟨_, rfl⟩
  | true =>
    cases u with
    | none => exact ⟨_, rfl⟩
    | some p =>
      obtain ⟨h1, h2⟩ := hu p rfl
      have hr : ∀ x : Str, (x = '<' :: p.raw ++ ['>'] ∨ x = '<' :: p.raw ++ ";lr>".toList) →
          OneLine x ∧ utf8Len x ≤ 8192 := by
        have e1 : utf8Len ";lr>".toList = 4 := by decide +kernel
        have e2 : utf8Len ['>'] = 1 := by decide +kernel
        have e4 : utf8Len ['<'] = 1 := by decide +kernel
        intro x hx
        have hlr : OneLine ";lr>".toList := by unfold OneLine; decide +kernel
        rcases hx with rfl | rfl
        · refine ⟨?_, ?_⟩
          · simp only [OneLine, List.mem_append, List.mem_cons, List.cons_append] at h1 ⊢
            simp [h1]
          · show utf8Len (['<'] ++ p.raw ++ ['>']) ≤ 8192
            rw [utf8Len_app, utf8Len_app, e2, e4]; omega
        · refine ⟨?_, ?_⟩
          · simp only [OneLine, List.mem_append, List.mem_cons, List.cons_append] at h1 hlr ⊢
            simp [h1, hlr]
          · show utf8Len (['<'] ++ p.raw ++ ";lr>".toList) ≤ 8192
            rw [utf8Len_app, utf8Len_app, e1, e4]; omega
      unfold addRecordRoute
      simp only
      have htok : Token "Record-Route".toList ∧ utf8Len "Record-Route".toList ≤ 128 :=
        (validateHeaderName_ok_iff "Record-Route".toList).mp (by decide +kernel)
      have hx : ∀ x : Str, (x = '<' :: p.raw ++ ['>'] ∨ x = '<' :: p.raw ++ ";lr>".toList) →
          ∃ hs, (Headers.mk (⟨"Via".toList, viaValue host transport branch⟩ :: out.inner)).push "Record-Route".toList x = .ok hs := by
        intro x hx
        obtain ⟨a, b⟩ := hr x hx
        exact ⟨_, C24_push_ok _ _ _ (by simp only [Headers.len, List.length_cons]; omega) htok.1 htok.2 a b⟩
      by_cases hc : (p.params.any fun e => eqIgnoreCase e.1 "lr".toList) = true
      · obtain ⟨hs, e⟩ := hx _ (.inl rfl)
        rw [if_pos hc, e]
        exact ⟨_, rfl⟩
      · obtain ⟨hs, e⟩ := hx _ (.inr rfl)
        rw [if_neg hc, e]
        exact ⟨_, rfl⟩

theorem isMf_not_via : ¬ IsMf ⟨"Via".toList, []⟩ := by
  unfold IsMf; rw [sameName_iff]; decide +kernel

theorem notMf_via (v : Str) : ¬ IsMf ⟨"Via".toList, v⟩ := isMf_not_via

/-- Forwarding leaves the lowered Max-Forwards where the next hop finds it. -/
theorem forward_agree {r q : Request} {target host transport : Str} {rr : Bool} {u : Option SipUri} {branch : Str}
    (h : prepareForward r target host transport rr u branch = .ok q) :
    ∃ v out, decrementMaxForwards r.headers = .ok (v, out) ∧ Agree out q.headers := by
  obtain ⟨_, _, _, v, out, tail, hd, _, hq⟩ := C72_forwarded r q target host transport rr u branch h
  refine ⟨v, out, hd, ?_⟩
  obtain ⟨_, p, x, t, hf, _⟩ := forward_says hd
  refine .inl ⟨p, x, t, ⟨"Via".toList, ViaText host transport branch⟩ :: p, x,
    t ++ tail, hf, ?_, rfl⟩
  refine ⟨by rw [hq, hf.1]; simp, hf.2.1, ?_⟩
  intro y hy
  rcases List.mem_cons.mp hy with rfl | hy
  · exact notMf_via _
  · exact hf.2.2 y hy

/-- A chain of `n` proxies: each prepares the request for forwarding, to any target; what lies between two of
them leaves Max-Forwards alone. -/
inductive FwdSpec.ProxyChain : Request → Nat → Prop
  | stop (r : Request) : ProxyChain r 0
  | hop {r q next : Request} {target host transport branch : Str} {rr : Bool} {u : Option SipUri} {n : Nat} :
      prepareForward r target host transport rr u branch = .ok q → Agree q.headers next.headers →
      ProxyChain next n → ProxyChain r (n + 1)

theorem agree_trans {a b c : Headers} (h : Agree a b) (h' : Agree b c) : Agree a c := by
  rcases h with ⟨p, x, q, p', x', q', f, f', e⟩ | ⟨n1, n2⟩
  · rcases h' with ⟨r, y, s, r', y', s', g, g', e'⟩ | ⟨m1, _⟩
    · obtain ⟨_, rfl, _⟩ := first_unique f' g
      exact .inl ⟨p, x, q, r', y', s', f, g', e.trans e'⟩
    · exact absurd f'.2.1 (m1 x' (by rw [f'.1]; simp))
  · rcases h' with ⟨r, y, s, r', y', s', g, g', e'⟩ | ⟨_, m2⟩
    · exact absurd g.2.1 (n2 y (by rw [g.1]; simp))
    · exact .inr ⟨n1, m2⟩

theorem chain_of_proxies {r : Request} {n : Nat} (h : ProxyChain r n) : Chain r.headers n := by
  induction h with
  | stop r => exact .stop _
  | hop hp hag _ ih =>
    obtain ⟨v, out, hd, ha⟩ := forward_agree hp
    exact .hop hd (agree_trans ha hag) ih

/-- **C25, through proxies.**  No request passes more than 255 of these proxies, one that says `k` passes at
most `k`, and one without Max-Forwards at most 70. -/
theorem C25_proxies {r : Request} {n : Nat} (h : ProxyChain r n) :
    n ≤ 255 ∧ (∀ pre x post k, First r.headers pre x post → Says x.value k → n ≤ k) ∧
      ((∀ x ∈ r.headers.inner, ¬ IsMf x) → n ≤ 70) :=
  ⟨C25_at_most_255 (chain_of_proxies h), C25_chain (chain_of_proxies h), C25_chain_absent (chain_of_proxies h)⟩

/-! ## C54: loops -/

namespace FwdSpec

/-- The Via was added by a proxy named `host`: its second word, up to the first `;` and the first `:` in that,
is the name. -/
def SentBy (v host : Str) : Prop :=
  ∃ w1 w2 ws hp hp' name rest, Words v (w1 :: w2 :: ws) ∧ Pieces ';' w2 (hp :: hp') ∧
    Pieces ':' hp (name :: rest) ∧ SameName name host

/-- The first branch parameter of the Via says `b`. -/
def BranchIs (v b : Str) : Prop :=
  ∃ pre p post, Pieces ';' v (pre ++ p :: post) ∧ Strips isWs p ("branch=".toList ++ b) ∧
    ∀ x ∈ pre, ∀ y, ¬ Strips isWs x ("branch=".toList ++ y)

/-- A Via header in full or compact form. -/
def ViaName (h : Header) : Prop := SameName h.name "Via".toList ∨ SameName h.name "v".toList

/-- The second request is the same as the first where it matters to loop detection. -/
def SameIdentity (r s : Request) : Prop :=
  s.uri = r.uri ∧ ∀ n ∈ ["To", "From", "Call-ID", "CSeq"], s.headers.get n.toList = r.headers.get n.toList

/-- A host name as it may appear in a Via: not empty, no white space, no `;`, no port. -/
def HostName (s : Str) : Prop := s ≠ [] ∧ ∀ c ∈ s, isWs c = false ∧ c ≠ ';' ∧ c ≠ ':'

/-- A transport name. -/
def TransportName (s : Str) : Prop := ∀ c ∈ s, isWs c = false ∧ c ≠ ';'

end FwdSpec

theorem findPrefixed_iff (p : Str) (b : Str) : ∀ l : List Str,
    findPrefixed p l = some b ↔ ∃ pre x post, l = pre ++ x :: post ∧ trim x = p ++ b ∧ ∀ y ∈ pre, ∀ z, trim y ≠ p ++ z
  | [] => by simp [findPrefixed]
  | x :: xs => by
    unfold findPrefixed
    by_cases hp : p.isPrefixOf (trim x) = true
    · rw [if_pos hp]
      obtain ⟨t, ht⟩ := List.isPrefixOf_iff_prefix.mp hp
      constructor
      · intro h
        simp only [Option.some.injEq] at h
        refine ⟨[], x, xs, rfl, ?_, by simp⟩
        rw [← ht] at h ⊢
        simp at h
        rw [h]
      · rintro ⟨pre, y, post, e, h1, h2⟩
        cases pre with
        | nil =>
          simp only [List.nil_append, List.cons.injEq] at e
          rw [e.1, h1]; simp
        | cons z pre =>
          simp only [List.cons_append, List.cons.injEq] at e
          exact absurd ht.symm (e.1 ▸ h2 z (by simp) t)
    · rw [if_neg hp, findPrefixed_iff p b xs]
      have hx : ∀ z, trim x ≠ p ++ z := by
        intro z e
        exact hp (List.isPrefixOf_iff_prefix.mpr ⟨z, e.symm⟩)
      constructor
      · rintro ⟨pre, y, post, rfl, h1, h2⟩
        refine ⟨x :: pre, y, post, rfl, h1, ?_⟩
        intro w hw
        rcases List.mem_cons.mp hw with rfl | hw
        · exact hx
        · exact h2 w hw
      · rintro ⟨pre, y, post, e, h1, h2⟩
        cases pre with
        | nil =>
          simp only [List.nil_append, List.cons.injEq] at e
          exact absurd h1 (e.1 ▸ hx b)
        | cons z pre =>
          simp only [List.cons_append, List.cons.injEq] at e
          exact ⟨pre, y, post, e.2, h1, fun w hw => h2 w (by simp [hw])⟩

theorem viaBranch_iff (v b : Str) : viaBranch v = some b ↔ BranchIs v b := by
  unfold viaBranch BranchIs
  rw [findPrefixed_iff]
  constructor
  · rintro ⟨pre, x, post, e, h1, h2⟩
    refine ⟨pre, x, post, (pieces_iff _ _ _).mpr e.symm, (strips_trim _ _).mpr h1.symm, ?_⟩
    intro y hy z hz
    exact h2 y hy z ((strips_trim _ _).mp hz).symm
  · rintro ⟨pre, x, post, hp, h1, h2⟩
    refine ⟨pre, x, post, ((pieces_iff _ _ _).mp hp).symm, ((strips_trim _ _).mp h1).symm, ?_⟩
    intro y hy z hz
    exact h2 y hy z ((strips_trim _ _).mpr hz.symm)

theorem firstPiece_pieces (c : Char) (s p : Str) (ps : List Str) (h : Pieces c s (p :: ps)) : firstPiece c s = p := by
  unfold firstPiece
  rw [← (pieces_iff _ _ _).mp h]

theorem pieces_exists (c : Char) (s : Str) : ∃ p ps, Pieces c s (p :: ps) := by
  cases h : splitChar c s with
  | nil => exact absurd h (splitChar_ne_nil c s)
  | cons p ps => exact ⟨p, ps, (pieces_iff _ _ _).mpr h.symm⟩

/-- The test of one Via header. -/
theorem own_via_iff (v host : Str) :
    (match viaSentBy v with
     | none => false
     | some sb => sentByMatches sb host) = true ↔ SentBy v host := by
  constructor
  · intro h
    unfold viaSentBy at h
    cases hw : splitWhitespace v with
    | nil => rw [hw] at h; simp at h
    | cons w1 l =>
      cases l with
      | nil => rw [hw] at h; simp at h
      | cons w2 ws =>
        rw [hw] at h
        simp only at h
        obtain ⟨hp, hp', e1⟩ := pieces_exists ';' w2
        rw [firstPiece_pieces _ _ _ _ e1] at h
        obtain ⟨name, rest, e2⟩ := pieces_exists ':' hp
        unfold sentByMatches at h
        rw [firstPiece_pieces _ _ _ _ e2] at h
        exact ⟨w1, w2, ws, hp, hp', name, rest, (words_iff _ _).mpr hw, e1, e2, (sameName_iff _ _).mpr h⟩
  · rintro ⟨w1, w2, ws, hp, hp', name, rest, hw, e1, e2, hn⟩
    unfold viaSentBy
    rw [(words_iff _ _).mp hw]
    simp only
    rw [firstPiece_pieces _ _ _ _ e1]
    unfold sentByMatches
    rw [firstPiece_pieces _ _ _ _ e2]
    exact (sameName_iff _ _).mp hn

theorem isVia_iff (h : Header) : isVia h = true ↔ ViaName h := by
  unfold isVia ViaName
  rw [Bool.or_eq_true, nameEq_iff, nameEq_iff]

/-- **C54, exactly.**  Loop detection rejects a request exactly when one of its Via headers was added by a
proxy of this name and carries as its branch the hash of this very request. -/
theorem C54_exactly (sha : Bytes → Bytes) (s : Request) (host : Str) :
    detectLoopHashed sha s host = false ↔
      ∃ h ∈ s.headers.inner, ViaName h ∧ SentBy h.value host ∧ BranchIs h.value (loopBranch sha s host) := by
  unfold detectLoopHashed
  rw [Bool.not_eq_false', List.any_eq_true]
  constructor
  · rintro ⟨h, hh, hc⟩
    rw [Bool.and_eq_true] at hc
    refine ⟨h, hh, (isVia_iff h).mp hc.1, ?_⟩
    have hc2 := hc.2
    cases hv : viaSentBy h.value with
    | none => rw [hv] at hc2; simp at hc2
    | some sb =>
      rw [hv] at hc2
      simp only [Bool.and_eq_true] at hc2
      refine ⟨(own_via_iff h.value host).mp (by rw [hv]; exact hc2.1), ?_⟩
      cases hb : viaBranch h.value with
      | none => rw [hb] at hc2; simp at hc2
      | some b =>
        rw [hb] at hc2
        simp only [beq_iff_eq] at hc2
        rw [← hc2.2]
        exact (viaBranch_iff _ _).mp hb
  · rintro ⟨h, hh, h1, h2, h3⟩
    refine ⟨h, hh, ?_⟩
    rw [Bool.and_eq_true]
    refine ⟨(isVia_iff h).mpr h1, ?_⟩
    have h2' := (own_via_iff h.value host).mpr h2
    cases hv : viaSentBy h.value with
    | none => rw [hv] at h2'; simp at h2'
    | some sb =>
      rw [hv] at h2'
      simp only at h2' ⊢
      rw [(viaBranch_iff _ _).mpr h3, h2']
      simp

theorem hexDigit_alnum (n : Nat) (h : n < 16) : isAlnum (hexDigit n) = true := by
  have : ∀ m : Fin 16, isAlnum (hexDigit m.1) = true := by decide +kernel
  exact this ⟨n, h⟩

theorem hexEncode_alnum : ∀ (l : Bytes), ∀ c ∈ hexEncode l, isAlnum c = true
  | [], _, h => by simp [hexEncode] at h
  | b :: t, c, h => by
    have hb := b.toNat_lt
    simp only [hexEncode, List.mem_cons] at h
    rcases h with rfl | rfl | h
    · exact hexDigit_alnum _ (by omega)
    · exact hexDigit_alnum _ (by omega)
    · exact hexEncode_alnum t c h

theorem loopBranch_alnum (sha : Bytes → Bytes) (r : Request) (host : Str) :
    ∀ c ∈ loopBranch sha r host, isAlnum c = true := by
  intro c hc
  unfold loopBranch at hc
  rcases List.mem_append.mp hc with hc | hc
  · have : ∀ c ∈ "z9hG4bK".toList, isAlnum c = true := by decide +kernel
    exact this c hc
  · exact hexEncode_alnum _ c hc

theorem alnum_plain {c : Char} (h : isAlnum c = true) : isWs c = false ∧ c ≠ ';' ∧ c ≠ ':' := by
  rw [isAlnum_iff] at h
  refine ⟨?_, ?_, ?_⟩
  · unfold isWs
    simp only [Bool.or_eq_false_iff, Bool.and_eq_false_iff, decide_eq_false_iff_not, beq_eq_false_iff_ne]
    omega
  · rintro rfl; revert h; decide
  · rintro rfl; revert h; decide

theorem loopBranch_same (sha : Bytes → Bytes) (r s : Request) (host : Str) (h : SameIdentity r s) :
    loopBranch sha s host = loopBranch sha r host := by
  unfold loopBranch cseqWord
  rw [h.1, h.2 "To" (by simp), h.2 "From" (by simp), h.2 "Call-ID" (by simp), h.2 "CSeq" (by simp)]

/-- The words and pieces of a Via of ours, whatever follows its branch parameter. -/
theorem own_via (host transport b suffix : Str) (hh : HostName host) (ht : TransportName transport)
    (hb : ∀ c ∈ b, isAlnum c = true) (hsuf : suffix = [] ∨ ∃ t, suffix = ';' :: t) :
    SentBy ("SIP/2.0/".toList ++ transport ++ " ".toList ++ host ++ ";branch=".toList ++ b ++ suffix) host ∧
    BranchIs ("SIP/2.0/".toList ++ transport ++ " ".toList ++ host ++ ";branch=".toList ++ b ++ suffix) b := by
  have hsip : ∀ c ∈ "SIP/2.0/".toList, isWs c = false ∧ c ≠ ';' := by decide +kernel
  have hbr : ∀ c ∈ "branch=".toList, isWs c = false ∧ c ≠ ';' := by decide +kernel
  have hw1 : ∀ c ∈ "SIP/2.0/".toList ++ transport, isWs c = false ∧ c ≠ ';' := by
    intro c hc
    rcases List.mem_append.mp hc with hc | hc
    · exact hsip c hc
    · exact ht c hc
  have hbb : ∀ c ∈ "branch=".toList ++ b, isWs c = false ∧ c ≠ ';' := by
    intro c hc
    rcases List.mem_append.mp hc with hc | hc
    · exact hbr c hc
    · exact ⟨(alnum_plain (hb c hc)).1, (alnum_plain (hb c hc)).2.1⟩
  constructor
  · -- the sent-by
    let tail := ";branch=".toList ++ b ++ suffix
    -- the rest of the second word
    have hsplit : ∃ a t, tail = a ++ t ∧ (∀ c ∈ a, isWs c = false) ∧ (∀ c, t.head? = some c → isWs c = true) ∧
        ∃ a', a = ';' :: a' := by
      refine ⟨tail.takeWhile (fun c => !isWs c), tail.dropWhile (fun c => !isWs c), by simp, ?_, ?_, ?_⟩
      · intro c hc
        have := mem_takeWhile tail c hc
        simpa using this
      · intro c hc
        have := dropWhile_head tail c hc
        simpa using this
      · have e : tail = ';' :: ("branch=".toList ++ b ++ suffix) := rfl
        rw [e, List.takeWhile_cons_of_pos (by decide)]
        exact ⟨_, rfl⟩
    obtain ⟨a, t, et, ha, ht', a', rfl⟩ := hsplit
    refine ⟨"SIP/2.0/".toList ++ transport, host ++ ';' :: a', splitWhitespace t, host, splitChar ';' a', host, [], ?_, ?_, ?_, sameName_refl _⟩
    · have hrest : Words t (splitWhitespace t) := (words_iff _ _).mpr rfl
      have h2 := Words.cons (lead := [' ']) (w := host ++ ';' :: a') (rest := t) (ws := splitWhitespace t)
        (by simp; decide) (by simp) (by
          intro c hc
          rcases List.mem_append.mp hc with hc | hc
          · exact (hh.2 c hc).1
          · exact ha c hc) ht' hrest
      have h1 := Words.cons (lead := []) (w := "SIP/2.0/".toList ++ transport) (rest := [' '] ++ (host ++ ';' :: a' ++ t))
        (by simp) (by simp) (fun c hc => (hw1 c hc).1) (by simp; decide) h2
      have e : "SIP/2.0/".toList ++ transport ++ " ".toList ++ host ++ ";branch=".toList ++ b ++ suffix =
          [] ++ ("SIP/2.0/".toList ++ transport ++ ([' '] ++ (host ++ ';' :: a' ++ t))) := by
        have e2 : ";branch=".toList ++ (b ++ suffix) = ';' :: a' ++ t := by rw [← et]; simp [tail]
        simp only [List.append_assoc, List.nil_append]
        rw [e2]
        rfl
      rw [e]; exact h1
    · refine ⟨by simp, ?_, ?_⟩
      · rw [join_cons ';' host _ (splitChar_ne_nil _ _), (join_splitChar ';' a').1]
      · intro p hp
        rcases List.mem_cons.mp hp with rfl | hp
        · intro hc; exact (hh.2 _ hc).2.1 rfl
        · exact (join_splitChar ';' a').2 p hp
    · refine ⟨by simp, by simp [join], ?_⟩
      intro p hp
      rw [List.mem_singleton.mp hp]
      intro hc; exact (hh.2 _ hc).2.2 rfl
  · -- the branch
    let p0 := "SIP/2.0/".toList ++ transport ++ " ".toList ++ host
    have hp0 : ';' ∉ p0 := by
      intro hc
      simp only [p0, List.mem_append] at hc
      rcases hc with ((hc | hc) | hc) | hc
      · exact (hsip _ hc).2 rfl
      · exact (ht _ hc).2 rfl
      · revert hc; decide
      · exact (hh.2 _ hc).2.1 rfl
    obtain ⟨post, hpost⟩ : ∃ post, Pieces ';' ("SIP/2.0/".toList ++ transport ++ " ".toList ++ host ++ ";branch=".toList ++ b ++ suffix)
        ([p0] ++ ("branch=".toList ++ b) :: post) := by
      rcases hsuf with rfl | ⟨t, rfl⟩
      · refine ⟨[], by simp, ?_, ?_⟩
        · simp [join, p0]
        · intro p hp
          simp only [List.cons_append, List.nil_append, List.mem_cons, List.not_mem_nil, or_false] at hp
          rcases hp with rfl | rfl
          · exact hp0
          · intro hc; exact (hbb _ hc).2 rfl
      · refine ⟨splitChar ';' t, by simp, ?_, ?_⟩
        · have e : ([p0] ++ ("branch=".toList ++ b) :: splitChar ';' t) = p0 :: ("branch=".toList ++ b) :: splitChar ';' t := rfl
          rw [e, join_cons _ _ _ (by simp), join_cons _ _ _ (splitChar_ne_nil _ _), (join_splitChar ';' t).1]
          simp [p0]
        · intro p hp
          simp only [List.cons_append, List.nil_append, List.mem_cons] at hp
          rcases hp with rfl | rfl | hp
          · exact hp0
          · intro hc; exact (hbb _ hc).2 rfl
          · exact (join_splitChar ';' t).2 p hp
    refine ⟨[p0], "branch=".toList ++ b, post, hpost, ?_, ?_⟩
    · rw [strips_trim]
      exact (trim_of_trimmed _ (trimmed_of_all _ (fun c hc => (hbb c hc).1))).symm
    · intro x hx y hy
      rw [List.mem_singleton.mp hx] at hy
      obtain ⟨pa, pb, e, h1, h2, h3, h4⟩ := hy
      have e0 : p0 = 'S' :: ("IP/2.0/".toList ++ transport ++ " ".toList ++ host) := rfl
      rw [e0] at e
      cases pa with
      | nil =>
        have : ("branch=".toList ++ y : Str) = 'b' :: ("ranch=".toList ++ y) := rfl
        rw [this] at e
        simp at e
      | cons z pa =>
        simp only [List.cons_append, List.cons.injEq] at e
        have := h1 z (by simp)
        rw [← e.1] at this
        revert this; decide

/-- **C54.**  A request that comes back unchanged in Request-URI, To, From, Call-ID and CSeq, still carrying
the Via this proxy added (with whatever parameters were appended to it, at any place among any other headers),
is rejected. -/
theorem C54_detected_partial (sha : Bytes → Bytes) (r r' s : Request) (host transport branch suffix : Str)
    (hh : HostName host) (ht : TransportName transport) (hadd : addViaLoop sha r host transport = some (r', branch))
    (hsame : SameIdentity r s) (hsuf : suffix = [] ∨ ∃ t, suffix = ';' :: t)
    (h : Header) (hin : h ∈ s.headers.inner) (hname : ViaName h)
    (hval : h.value = "SIP/2.0/".toList ++ transport ++ " ".toList ++ host ++ ";branch=".toList ++ branch ++ suffix) :
    detectLoopHashed sha s host = false := by
  have hb : branch = loopBranch sha r host := by
    unfold addViaLoop at hadd
    simp only [Option.map_eq_some_iff] at hadd
    obtain ⟨_, _, e⟩ := hadd
    exact (Prod.mk.inj e).2.symm
  subst hb
  obtain ⟨h1, h2⟩ := own_via host transport _ suffix hh ht (loopBranch_alnum sha r host) hsuf
  rw [C54_exactly]
  refine ⟨h, hin, hname, by rw [hval]; exact h1, ?_⟩
  rw [hval, loopBranch_same sha r s host hsame]
  exact h2

/-- The Via as it was added qualifies, and so does one completed by the next hop. -/
theorem C54_as_sent (sha : Bytes → Bytes) (r r' : Request) (host transport branch : Str) (hh : HostName host)
    (ht : TransportName transport) (hadd : addViaLoop sha r host transport = some (r', branch)) :
    detectLoopHashed sha r' host = false := by
  have hadd' := hadd
  unfold addViaLoop at hadd'
  simp only [Option.map_eq_some_iff] at hadd'
  obtain ⟨r1, hp, e⟩ := hadd'
  obtain ⟨rfl, rfl⟩ := Prod.mk.inj e
  obtain ⟨_, _, _, e1⟩ := (prependVia_iff _ _ _).mp hp
  refine C54_detected_partial sha r r1 r1 host transport _ ";rport".toList hh ht hadd ?_ (.inr ⟨"rport".toList, rfl⟩)
    ⟨"Via".toList, viaValue host transport (loopBranch sha r host)⟩ (by rw [e1]; exact List.mem_cons_self) (.inl (sameName_refl "Via".toList)) rfl
  subst e1
  refine ⟨rfl, ?_⟩
  intro n hn
  have hv : ∀ n ∈ ["To", "From", "Call-ID", "CSeq"], Header.nameEq ⟨"Via".toList, []⟩ n.toList = false := by decide +kernel
  unfold Headers.get Headers.getHeader
  simp only
  rw [List.find?_cons_of_neg]
  have := hv n hn
  unfold Header.nameEq at this ⊢
  simp only at this ⊢
  rw [this]; simp

theorem not_same_colon {a host : Str} (h : SameName a host) (hc : ':' ∈ host) : ':' ∈ a := by
  induction h with
  | nil => exact hc
  | cons h1 _ ih =>
    rename_i x y s t _
    rcases List.mem_cons.mp hc with rfl | hc
    · have := (charSame_iff _ _).mp h1
      have hx : x = ':' := by
        have h2 : (':' : Char).toLower = ':' := by decide
        rw [h2] at this
        have h3 := congrArg Char.toNat this
        rw [toLower_toNat] at h3
        apply char_ext_toNat
        simp only [show ':'.toNat = 58 from rfl] at h3 ⊢
        split at h3 <;> omega
      rw [hx]; simp
    · exact List.mem_cons_of_mem _ (ih hc)

/-- **C54 fails for a proxy configured with a port.**  If the name the proxy puts into its Vias contains a
`:` (siphond takes everything behind the `@` of its configured URI, port included), no request is ever
recognised as coming back. -/
theorem C54_port (sha : Bytes → Bytes) (s : Request) (host : Str) (hc : ':' ∈ host) :
    detectLoopHashed sha s host = true := by
  cases hd : detectLoopHashed sha s host with
  | true => rfl
  | false =>
    exfalso
    obtain ⟨h, _, _, ⟨w1, w2, ws, hp, hp', name, rest, _, _, e2, hn⟩, _⟩ := (C54_exactly sha s host).mp hd
    exact e2.2.2 name (by simp) (not_same_colon hn hc)

/-! ### Spirals -/

theorem append_sep_inj {c : Char} : ∀ {a b x y : Str}, c ∉ a → c ∉ b → a ++ c :: x = b ++ c :: y → a = b ∧ x = y
  | [], [], _, _, _, _, h => by simpa using h
  | [], b :: bs, _, _, _, hb, h => by
    simp only [List.nil_append, List.cons_append, List.cons.injEq] at h
    exact absurd h.1 (by simp at hb; exact hb.1)
  | a :: as, [], _, _, ha, _, h => by
    simp only [List.nil_append, List.cons_append, List.cons.injEq] at h
    exact absurd h.1.symm (by simp at ha; exact ha.1)
  | a :: as, b :: bs, x, y, ha, hb, h => by
    simp only [List.cons_append, List.cons.injEq] at h
    simp only [List.mem_cons, not_or] at ha hb
    obtain ⟨h1, h2⟩ := append_sep_inj ha.2 hb.2 h.2
    exact ⟨by rw [h.1, h1], h2⟩

theorem loopText_chars (to frm callId cseq uri host : Str) :
    loopText to frm callId cseq uri host = utf8 (to ++ '\x1f' :: (frm ++ '\x1f' :: (callId ++ '\x1f' ::
      (cseq ++ '\x1f' :: (uri ++ '\x1f' :: host))))) := by
  have hs : ∀ x : Str, utf8 ('\x1f' :: x) = 0x1f :: utf8 x := fun x => rfl
  unfold loopText
  simp only [utf8_append, hs, List.append_assoc, List.cons_append, List.nil_append]

/-- The hashed text determines what went into it, if no part contains the separator U+001F. -/
theorem loopText_inj {to frm callId cseq uri host to' frm' callId' cseq' uri' host' : Str}
    (h1 : '\x1f' ∉ to ∧ '\x1f' ∉ frm ∧ '\x1f' ∉ callId ∧ '\x1f' ∉ cseq ∧ '\x1f' ∉ uri)
    (h2 : '\x1f' ∉ to' ∧ '\x1f' ∉ frm' ∧ '\x1f' ∉ callId' ∧ '\x1f' ∉ cseq' ∧ '\x1f' ∉ uri')
    (h : loopText to frm callId cseq uri host = loopText to' frm' callId' cseq' uri' host') :
    to = to' ∧ frm = frm' ∧ callId = callId' ∧ cseq = cseq' ∧ uri = uri' ∧ host = host' := by
  rw [loopText_chars, loopText_chars] at h
  obtain ⟨e1, h⟩ := append_sep_inj h1.1 h2.1 (utf8_inj h)
  obtain ⟨e2, h⟩ := append_sep_inj h1.2.1 h2.2.1 h
  obtain ⟨e3, h⟩ := append_sep_inj h1.2.2.1 h2.2.2.1 h
  obtain ⟨e4, h⟩ := append_sep_inj h1.2.2.2.1 h2.2.2.2.1 h
  obtain ⟨e5, h⟩ := append_sep_inj h1.2.2.2.2 h2.2.2.2.2 h
  exact ⟨e1, e2, e3, e4, e5, h⟩

theorem hexDigit_inj {a b : Nat} (ha : a < 16) (hb : b < 16) (h : hexDigit a = hexDigit b) : a = b := by
  have : ∀ x y : Fin 16, hexDigit x.1 = hexDigit y.1 → x.1 = y.1 := by decide +kernel
  exact this ⟨a, ha⟩ ⟨b, hb⟩ h

theorem hexEncode_inj : ∀ {a b : Bytes}, hexEncode a = hexEncode b → a = b
  | [], [], _ => rfl
  | [], _ :: _, h => by simp [hexEncode] at h
  | _ :: _, [], h => by simp [hexEncode] at h
  | x :: a, y :: b, h => by
    simp only [hexEncode, List.cons.injEq] at h
    have hx := x.toNat_lt
    have hy := y.toNat_lt
    have h1 := hexDigit_inj (by omega) (by omega) h.1
    have h2 := hexDigit_inj (by omega) (by omega) h.2.1
    rw [hexEncode_inj h.2.2]
    have : x = y := UInt8.toNat_inj.mp (by omega)
    rw [this]

/-- The parts of a request that are hashed do not contain the separator. -/
def FwdSpec.NoSeparator (r : Request) : Prop :=
  '\x1f' ∉ r.uri ∧ ∀ n ∈ ["To", "From", "Call-ID", "CSeq"], ∀ v, r.headers.get n.toList = some v → '\x1f' ∉ v

theorem orEmpty_clean {r : Request} (h : NoSeparator r) (n : String) (hn : n ∈ ["To", "From", "Call-ID", "CSeq"]) :
    '\x1f' ∉ orEmpty (r.headers.get n.toList) := by
  cases hg : r.headers.get n.toList with
  | none => simp [orEmpty]
  | some v => exact h.2 n hn v hg

theorem words_sub : ∀ {s : Str} {ws : List Str}, Words s ws → ∀ w ∈ ws, ∀ c ∈ w, c ∈ s := by
  intro s ws h
  induction h with
  | nil _ => simp
  | cons _ _ _ _ _ ih =>
    intro x hx c hc
    rcases List.mem_cons.mp hx with rfl | hx
    · simp [hc]
    · simp [ih x hx c hc]

theorem cseqWord_clean {r : Request} (h : NoSeparator r) : '\x1f' ∉ cseqWord r.headers := by
  unfold cseqWord
  cases hg : r.headers.get "CSeq".toList with
  | none => simp
  | some v =>
    simp only
    cases hw : splitWhitespace v with
    | nil => simp
    | cons w ws =>
      simp only
      intro hc
      exact h.2 "CSeq" (by simp) v hg (words_sub ((words_iff _ _).mpr hw) w (by simp) _ hc)

/-- The text of a request that is hashed. -/
def FwdSpec.hashed (r : Request) (host : Str) : Bytes :=
  loopText (orEmpty (r.headers.get "To".toList)) (orEmpty (r.headers.get "From".toList))
    (orEmpty (r.headers.get "Call-ID".toList)) (cseqWord r.headers) r.uri host

/-- **C54, spirals.**  If SHA-256, cut to 16 bytes, does not collide on the two texts, a request that comes back
with another Request-URI, To, From, Call-ID or CSeq number is not rejected, as long as every Via of this
proxy's that it carries has the branch of the first passage. -/
theorem C54_spiral (sha : Bytes → Bytes) (r s : Request) (host : Str)
    (hsha : (sha (hashed s host)).take 16 = (sha (hashed r host)).take 16 → hashed s host = hashed r host) (hr : NoSeparator r) (hs : NoSeparator s)
    (hvia : ∀ h ∈ s.headers.inner, ViaName h → SentBy h.value host → BranchIs h.value (loopBranch sha r host))
    (hdiff : s.uri ≠ r.uri ∨ cseqWord s.headers ≠ cseqWord r.headers ∨
      ∃ n ∈ ["To", "From", "Call-ID"], ∃ a b, s.headers.get n.toList = some a ∧ r.headers.get n.toList = some b ∧ a ≠ b) :
    detectLoopHashed sha s host = true := by
  cases hd : detectLoopHashed sha s host with
  | true => rfl
  | false =>
    exfalso
    obtain ⟨h, hin, hn, hsb, hb⟩ := (C54_exactly sha s host).mp hd
    have hb' := hvia h hin hn hsb
    have hsame : loopBranch sha s host = loopBranch sha r host := by
      have e1 := (viaBranch_iff _ _).mpr hb
      have e2 := (viaBranch_iff _ _).mpr hb'
      rw [e1] at e2
      exact Option.some.inj e2
    unfold loopBranch at hsame
    have e := hsha (hexEncode_inj (List.append_cancel_left hsame))
    obtain ⟨a1, a2, a3, a4, a5, _⟩ := loopText_inj
      ⟨orEmpty_clean hs "To" (by simp), orEmpty_clean hs "From" (by simp), orEmpty_clean hs "Call-ID" (by simp),
        cseqWord_clean hs, hs.1⟩
      ⟨orEmpty_clean hr "To" (by simp), orEmpty_clean hr "From" (by simp), orEmpty_clean hr "Call-ID" (by simp),
        cseqWord_clean hr, hr.1⟩ e
    rcases hdiff with hdiff | hdiff | ⟨n, hn, a, b, ha, hb, hab⟩
    · exact hdiff a5
    · exact hdiff a4
    · simp only [List.mem_cons, List.not_mem_nil, or_false] at hn
      rcases hn with rfl | rfl | rfl
      · rw [ha, hb] at a1; exact hab a1
      · rw [ha, hb] at a2; exact hab a2
      · rw [ha, hb] at a3; exact hab a3

/-- **C54, the separator.**  Header values may contain U+001F, and then two different requests can have the same
branch: moving the separator from To to From changes nothing in the hashed text. -/
theorem C54_ambiguous (a b c callId cseq uri host : Str) :
    loopText (a ++ '\x1f' :: b) c callId cseq uri host = loopText a (b ++ '\x1f' :: c) callId cseq uri host := by
  rw [loopText_chars, loopText_chars]
  simp [List.append_assoc]

/-! ## Cases -/

open Demo

namespace Demo

/-- A stand-in for SHA-256 (the first 32 bytes after the Call-ID would do as well): a sum repeated. -/
def sha (x : Bytes) : Bytes := List.replicate 32 (x.foldl (fun a b => a * 31 + b) 7)

def host : Str := "proxy.example.com".toList
def udp : Str := "UDP".toList

end Demo

example : HostName host := by
  refine ⟨by decide +kernel, ?_⟩
  have : host.all (fun c => isWs c == false && c != ';' && c != ':') = true := by decide +kernel
  intro c hc
  have := List.all_eq_true.mp this c hc
  simpa [Bool.and_eq_true, bne_iff_ne, and_assoc] using this
example : (addViaLoop sha invite host udp).isSome = true := by decide +kernel
/-- It comes back: rejected. -/
example : (match addViaLoop sha invite host udp with
    | some (q, _) => detectLoopHashed sha q host
    | none => true) = false := by decide +kernel
/-- It comes back for another user: let through, if the hash differs. -/
example : (match addViaLoop sha invite host udp with
    | some (q, _) => detectLoopHashed sha { q with uri := "sip:carol@example.com".toList } host
    | none => false) = true := by decide +kernel
example : (sha (hashed { invite with uri := "sip:carol@example.com".toList } host)).take 16 ≠ (sha (hashed invite host)).take 16 := by
  decide +kernel
example : invite.headers.get "To".toList = some "<sip:bob@example.com>".toList := by decide +kernel
/-- The same, at a proxy configured with its port: not recognised. -/
example : (match addViaLoop sha invite "proxy.example.com:5060".toList udp with
    | some (q, _) => detectLoopHashed sha q "proxy.example.com:5060".toList
    | none => false) = true := by decide +kernel

/-- **C54 fails if the next proxy joins the Vias on one line.**  Only the first of them is looked at. -/
theorem C54_joined :
    (match addViaLoop sha invite host udp with
     | some (q, b) => detectLoopHashed sha { q with headers := ⟨[⟨"Via".toList, "SIP/2.0/UDP other.example.com;branch=z9hG4bKo, ".toList
         ++ ViaText host udp b⟩] ++ (invite.headers.inner.drop 1)⟩ } host
     | none => false) = true := by decide +kernel

/-- **Record-Route goes to the end.**  A request that passes two proxies carries their Record-Routes in the
order of the passage; RFC 3261, section 16.6 step 4, puts each new one in front, and a callee who reads them
top down sends its requests to the wrong proxy first. -/
theorem C72_record_route_order (r q : Request) (target host transport branch : Str) (u : SipUri) (vs : List Str)
    (h : prepareForward r target host transport true (some u) branch = .ok q)
    (hno : ∀ v out, decrementMaxForwards r.headers = .ok (v, out) → Selects "Record-Route".toList out.inner vs) :
    ∃ v, RecordRouteText u v ∧ Selects "Record-Route".toList q.headers.inner (vs ++ [v]) := by
  obtain ⟨_, _, _, mf, out, tail, hd, ht, hq⟩ := C72_forwarded r q target host transport true (some u) branch h
  rcases ht with ⟨p, v, _, hp, hv, rfl⟩ | ⟨hc | hc, _⟩
  · cases hp
    refine ⟨v, hv, ?_⟩
    rw [hq]
    have hs := hno _ _ hd
    have happ : ∀ {l : List Header} {vs : List Str}, Selects "Record-Route".toList l vs →
        Selects "Record-Route".toList (l ++ [⟨"Record-Route".toList, v⟩]) (vs ++ [v]) := by
      intro l vs hl
      induction hl with
      | nil => exact .take (sameName_refl "Record-Route".toList) .nil
      | take hm _ ih => exact .take hm ih
      | skip hm _ ih => exact .skip hm ih
    refine .skip ?_ (happ hs)
    show ¬ SameName "Via".toList "Record-Route".toList
    rw [sameName_iff]; decide +kernel
  · cases hc
  · cases hc

/-- A request through one proxy, with Record-Route. -/
example : (match prepareForward invite "sip:bob@10.0.0.1".toList host udp true (SipUri.parse "sip:proxy.example.com;lr".toList) "z9hG4bKx".toList with
    | .ok q => q.headers.inner.map (fun h => String.ofList h.name) ==
        ["Via", "Via", "Max-Forwards", "To", "From", "Call-ID", "CSeq", "Record-Route"] &&
        q.headers.get "Max-Forwards".toList == some "69".toList &&
        q.headers.get "Record-Route".toList == some "<sip:proxy.example.com;lr>".toList
    | _ => false) = true := by decide +kernel
/-- Max-Forwards 0: refused. -/
example : prepareForward { invite with headers := ⟨[hd "Max-Forwards" "0"]⟩ } "sip:bob@10.0.0.1".toList host udp false none
    "z9hG4bKx".toList = .err := by decide +kernel
/-- Chains of proxies exist. -/
example : ∃ q : Request, prepareForward invite "sip:bob@10.0.0.1".toList host udp false none "z9hG4bKx".toList = .ok q ∧
    ProxyChain invite 1 := by
  have : ∃ q, prepareForward invite "sip:bob@10.0.0.1".toList host udp false none "z9hG4bKx".toList = .ok q := by
    have hb : (match prepareForward invite "sip:bob@10.0.0.1".toList host udp false none "z9hG4bKx".toList with
      | .ok _ => true | _ => false) = true := by decide +kernel
    cases hp : prepareForward invite "sip:bob@10.0.0.1".toList host udp false none "z9hG4bKx".toList with
    | ok q => exact ⟨q, rfl⟩
    | err => rw [hp] at hb; cases hb
    | panic => rw [hp] at hb; cases hb
  obtain ⟨q, hq⟩ := this
  obtain ⟨v, out, hd, ha⟩ := forward_agree hq
  refine ⟨q, hq, .hop (next := q) hq ?_ (.stop q)⟩
  rcases ha with ⟨p, x, t, p', x', t', f, f', e⟩ | ⟨h1, h2⟩
  · exact .inl ⟨p', x', t', p', x', t', f', f', rfl⟩
  · exact .inr ⟨h2, h2⟩

end Siphon.Proxy
