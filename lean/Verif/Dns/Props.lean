import Verif.Dns.Lemmas
/-!
# C57, C58, C59, C94: servers and their order
-/
namespace Siphon.Dns
open Spec Siphon.HdrSpec

/-! ## C94: where a request is sent -/

/-- The answer, with the parts named. -/
theorem resolve_eq (net : Net) (en : Bool) (u : SipUri) (rng : List Nat) : resolve net en u rng =
    if isNumericIp u.host then
      some [{ host := u.host, port := (match u.port with | some p => p | none => defaultPort u), transport := orUdp (insists u) }]
    else
      match u.port with
      | some p =>
        if (addressTargets u.host p (orUdp (insists u)) (addresses net u.host)).isEmpty then none
        else enforceLimit (addressTargets u.host p (orUdp (insists u)) (addresses net u.host))
      | none =>
        if (srvAll net u.sips 0 (queries net en u.host (insists u)) rng).isEmpty then
          if (addressTargets u.host (defaultPort u) (orUdp (insists u)) (addresses net u.host)).isEmpty then none
          else enforceLimit (addressTargets u.host (defaultPort u) (orUdp (insists u)) (addresses net u.host))
        else enforceLimit (srvAll net u.sips 0 (queries net en u.host (insists u)) rng) := by
  have hip : ∀ p, ipTarget u p = fun i => { host := i.text, port := p, transport := orUdp (insists u), priority := 0, tlsName := some u.host } := by
    intro p; funext i; simp only [ipTarget, defaultTransport_eq]
  have hq : srvQueries u (if en then lookupNaptr net u.host (insists u) else none) = queries net en u.host (insists u) := by
    unfold srvQueries
    unfold queries
    cases h : (if en then lookupNaptr net u.host (insists u) else none) with
    | none => simp only [defaultTransportOrder_eq]
    | some rs =>
      refine List.map_congr_left ?_
      intro r _
      unfold query
      cases r.replacement <;> rfl
  unfold resolve
  split
  · simp only [defaultTransport_eq]
    unfold enforceLimit MAX_TARGETS_PER_QUERY
    rfl
  · cases hp : u.port with
    | some p =>
      simp only
      cases hl : lookupIp net u.host with
      | none => simp [(lookupIp_none _ _).mp hl, addressTargets]
      | some ips =>
        have ha := lookupIp_some hl
        have hne : ips ≠ [] := by
          rintro rfl
          have := (lookupIp_none net u.host).mpr ha
          rw [hl] at this; cases this
        simp only [ha, addressTargets, hip]
        rw [if_neg]
        simpa using hne
    | none =>
      simp only
      have hi : (if u.sips then some Transport.tls else transportParam u) = insists u := rfl
      simp only [hi]
      rw [hq]
      split
      · cases hl : lookupIp net u.host with
        | none => simp [(lookupIp_none _ _).mp hl, addressTargets]
        | some ips => simp only [lookupIp_some hl, addressTargets, hip]
      · rfl

/-- C94: Whatever the DNS answers and whatever random numbers are drawn, the targets (or the failure) are among those the
rules allow, and every allowed answer is given for some random numbers. -/
theorem C94_resolve (net : Net) (en : Bool) (u : SipUri) (r : Option (List Target)) :
    (∃ rng, resolve net en u rng = r) ↔ Outcome net en u r := by
  constructor
  · rintro ⟨rng, rfl⟩
    have hi : Insists u (insists u) := (insists_iff _ _).mpr rfl
    have ha : Addresses net u.host (addresses net u.host) := (addresses_iff _ _ _).mpr rfl
    have hq : Queries net en u.host (insists u) (queries net en u.host (insists u)) := (queries_iff _ _ _ _ _).mpr rfl
    have hd : DefaultPort u.sips (defaultPort u) := (defaultPort_iff _ _).mpr rfl
    rw [resolve_eq]
    by_cases hn : isNumericIp u.host = true
    · rw [if_pos hn]
      refine .numeric ((numeric_iff _).mpr hn) hi ?_
      cases hp : u.port with
      | some p => exact Or.inl rfl
      | none => exact Or.inr ⟨rfl, hd⟩
    · rw [if_neg hn]
      have hn' : ¬ Numeric u.host := fun h => hn ((numeric_iff _).mp h)
      cases hp : u.port with
      | some p => exact .port hn' hp hi ha ((answers_iff _ _).mpr rfl)
      | none =>
        simp only
        have hs := srvAll_sound net u.sips (queries net en u.host (insists u)) 0 rng
        cases he : srvAll net u.sips 0 (queries net en u.host (insists u)) rng with
        | nil =>
          rw [he] at hs
          exact .addresses hn' hp hi hq hs hd ha ((answers_iff _ _).mpr rfl)
        | cons t ts =>
          rw [he] at hs
          exact .servers hn' hp hi hq hs (by simp) ((answers_iff _ _).mpr rfl)
  · intro h
    cases h with
    | numeric hn hi hp =>
      rw [numeric_iff] at hn
      rw [insists_iff] at hi
      subst hi
      refine ⟨[], ?_⟩
      rw [resolve_eq, if_pos hn]
      rcases hp with hp | ⟨hp, hd⟩
      · rw [hp]
      · rw [hp, ← (defaultPort_iff _ _).mp hd]
    | port hn hp hi ha hr =>
      rw [numeric_iff] at hn
      rw [insists_iff] at hi
      rw [addresses_iff] at ha
      subst hi ha
      exact ⟨[], by rw [resolve_eq, if_neg hn, hp]; exact ((answers_iff _ _).mp hr).symm⟩
    | servers hn hp hi hq hs hne hr =>
      rw [numeric_iff] at hn
      rw [insists_iff] at hi
      subst hi
      rw [queries_iff] at hq
      subst hq
      obtain ⟨rng, hrng⟩ := srvAll_reach _ _ _ _ _ hs
      refine ⟨rng, ?_⟩
      rw [resolve_eq, if_neg hn, hp]
      simp only [hrng]
      rw [(answers_iff _ _).mp hr]
      have : ∀ l : List Target, l ≠ [] → l.isEmpty = false := by intro l h; cases l with | nil => exact absurd rfl h | cons _ _ => rfl
      rw [this _ hne]
      rfl
    | addresses hn hp hi hq hs hd ha hr =>
      rw [numeric_iff] at hn
      rw [insists_iff] at hi
      subst hi
      rw [queries_iff] at hq
      rw [addresses_iff] at ha
      rw [defaultPort_iff] at hd
      subst hq ha hd
      obtain ⟨rng, hrng⟩ := srvAll_reach _ _ _ _ _ hs
      refine ⟨rng, ?_⟩
      rw [resolve_eq, if_neg hn, hp]
      simp only [hrng, List.isEmpty_nil, if_true]
      exact ((answers_iff _ _).mp hr).symm

/-! ## C57: priorities and weights -/

/-- C57: A lookup gives every usable record once, lower priority values first, and within one priority nothing of weight
zero before something of positive weight; it fails exactly if the query fails or no record is usable. Every such order
occurs for some random numbers, and no other. -/
theorem C57_order (net : Net) (n : Nat) (host : Str) (t : Transport) (sips : Bool) (r : Option (List Target)) (name : Str)
    (hn : Asks sips host t name) :
    (∃ rng, (lookupSrv net n host t sips rng).1 = r) ↔
      ∃ ts, SrvAnswer (net.srv n name) t ts ∧ ((ts = [] ∧ r = none) ∨ (ts ≠ [] ∧ r = some ts)) := by
  rw [asks_iff] at hn
  subst hn
  have hif : ∀ ts : List Target, ∀ r, (if ts.isEmpty then none else some ts) = r ↔ (ts = [] ∧ r = none) ∨ (ts ≠ [] ∧ r = some ts) := by
    intro ts r
    cases ts with
    | nil => simp [eq_comm]
    | cons _ _ => simp [eq_comm]
  unfold lookupSrv
  cases h : net.srv n (srvName host t sips) with
  | none =>
    constructor
    · rintro ⟨_, rfl⟩
      exact ⟨[], Or.inl ⟨rfl, rfl⟩, Or.inl ⟨rfl, rfl⟩⟩
    · rintro ⟨ts, h1, h2⟩
      rcases h1 with ⟨_, rfl⟩ | ⟨_, _, _, h', _⟩
      · rcases h2 with ⟨_, rfl⟩ | ⟨h2, _⟩
        · exact ⟨[], rfl⟩
        · exact absurd rfl h2
      · cases h'
  | some as =>
    constructor
    · rintro ⟨rng, rfl⟩
      exact ⟨_, lookup_sound (some as) t as rng rfl, (hif _ _).mp rfl⟩
    · rintro ⟨ts, h1, h2⟩
      obtain ⟨xs, hxs⟩ := lookup_reach t as ts h1
      refine ⟨xs, ?_⟩
      have := hxs []
      rw [List.append_nil] at this
      simp only [this]
      exact (hif ts r).mpr h2

/-- C57: Among records of one priority with a positive sum of weights, the share of the draws that choose a record next
is its weight: of the numbers below the sum, exactly `weight` choose it. -/
theorem C57_share (rs : List SrvRec) (i : Nat) (r : SrvRec) (hr : rs[i]? = some r)
    (hpos : 0 < (rs.map (fun r => r.1)).sum) :
    ((List.range (rs.map (fun r => r.1)).sum).filter (fun x => decide (chooseIdx rs x = i))).length = r.1 := by
  have hl := (List.getElem?_eq_some_iff.mp hr).1
  have he : rs[i] = r := (List.getElem?_eq_some_iff.mp hr).2
  have e : rs = rs.take i ++ rs[i] :: rs.drop (i + 1) := by simp
  have hs : wsum rs = wsum (rs.take i) + (r.1 + wsum (rs.drop (i + 1))) := by
    conv => lhs; rw [e]
    rw [wsum_split, he]
  have hc : ∀ x, x < wsum rs → (decide (chooseIdx rs x = i) =
      decide (wsum (rs.take i) ≤ x ∧ x < wsum (rs.take i) + r.1)) := by
    intro x hx
    obtain ⟨j, hj⟩ := position_some rs x 0 (Nat.zero_le _) (by omega)
    have hch : chooseIdx rs x = j := by
      unfold chooseIdx
      have h0 : ¬ (rs.map (fun r => r.1)).sum = 0 := by omega
      simp only [h0, if_false, Nat.mod_eq_of_lt (show x < (rs.map (fun r => r.1)).sum from hx), hj]
    rw [hch]
    rw [decide_eq_decide]
    have hiff := position_iff rs x 0 i (Nat.zero_le _)
    rw [hj] at hiff
    constructor
    · rintro rfl
      obtain ⟨r', h1, h2, h3⟩ := hiff.mp rfl
      rw [hr] at h1
      cases h1
      exact ⟨by omega, by omega⟩
    · rintro ⟨h1, h2⟩
      have := hiff.mpr ⟨r, hr, by omega, by omega⟩
      simpa using this
  have : (List.range (wsum rs)).filter (fun x => decide (chooseIdx rs x = i)) =
      (List.range (wsum rs)).filter (fun x => decide (wsum (rs.take i) ≤ x ∧ x < wsum (rs.take i) + r.1)) :=
    List.filter_congr (fun x hx => hc x (List.mem_range.mp hx))
  show ((List.range (wsum rs)).filter (fun x => decide (chooseIdx rs x = i))).length = r.1
  rw [this, range_between _ _ (by omega) _ (by omega)]
  omega

/-- C57: Among records that all have weight zero every one is as likely as any other: of any `n` consecutive numbers below
`n` (the number of records) each chooses a different one. -/
theorem C57_share_zero (rs : List SrvRec) (i : Nat) (hi : i < rs.length) (h0 : (rs.map (fun r => r.1)).sum = 0) :
    ((List.range rs.length).filter (fun x => decide (chooseIdx rs x = i))).length = 1 := by
  have hc : ∀ x, x < rs.length → (decide (chooseIdx rs x = i) = decide (i ≤ x ∧ x < i + 1)) := by
    intro x hx
    unfold chooseIdx
    simp only [h0, if_true, Nat.mod_eq_of_lt hx]
    rw [decide_eq_decide]
    omega
  rw [List.filter_congr (fun x hx => hc x (List.mem_range.mp hx)), range_between i (i + 1) (by omega) _ (by omega)]
  omega

/-- C57: RFC 2782 wants a record of weight zero to have a small chance of coming first; here it has none. -/
theorem C57_zero_never_first (net : Net) (n : Nat) (host : Str) (t : Transport) (sips : Bool) (rng : List Nat)
    (as : List Answer) (rs : List Srv) (name : Str) (hn : Asks sips host t name) (hq : net.srv n name = some as)
    (hu : Usable as rs) (ts : List Target) (hr : (lookupSrv net n host t sips rng).1 = some ts)
    (hone : ∀ s ∈ rs, s.priority = 0) (hw : ∃ s ∈ rs, 0 < s.weight) :
    ∃ s ∈ rs, 0 < s.weight ∧ ts.head? = some (srvTarget t s) := by
  obtain ⟨ts', h1, h2⟩ := (C57_order net n host t sips (some ts) name hn).mp ⟨rng, hr⟩
  rcases h2 with ⟨_, h2⟩ | ⟨_, h2⟩
  · cases h2
  · cases h2
    rcases h1 with ⟨h1, _⟩ | ⟨as', rs', out, e, hu', ⟨hp, hb⟩, rfl⟩
    · rw [h1] at hq; cases hq
    · rw [hq] at e
      cases e
      have huniq : rs'.Perm rs := by
        obtain ⟨_, g⟩ := usable_groups as [] ordered_nil
        have a := g rs hu
        have b := g rs' hu'
        simpa [flat] using b.symm.trans a
      have hp' := hp.trans huniq
      cases out with
      | nil =>
        obtain ⟨s, hs, _⟩ := hw
        rw [hp'.symm.eq_nil] at hs
        cases hs
      | cons x out =>
        refine ⟨x, hp'.mem_iff.mp List.mem_cons_self, ?_, rfl⟩
        obtain ⟨s, hs, hpos⟩ := hw
        rcases List.mem_cons.mp (hp'.mem_iff.mpr hs) with rfl | hs'
        · exact hpos
        · rcases (List.pairwise_cons.mp hb).1 s hs' with h | ⟨_, h⟩
          · have := hone s hs
            omega
          · rcases Nat.eq_zero_or_pos x.weight with h' | h'
            · have := h h'
              omega
            · exact h'

/-! ## C58: transports -/

theorem srvRun_transport {net : Net} {sips : Bool} {n : Nat} {qs : List (Str × Transport)} {ts : List Target} {t : Transport}
    (h : SrvRun net sips n qs ts) (hq : ∀ q ∈ qs, q.2 = t) : ∀ x ∈ ts, x.transport = t ∧ x.tlsName = none := by
  induction h with
  | nil => intro x hx; cases hx
  | cons ha hs hr ih =>
    intro x hx
    rcases List.mem_append.mp hx with hx | hx
    · rcases hs with ⟨_, rfl⟩ | ⟨as, rs, out, _, _, _, rfl⟩
      · cases hx
      · obtain ⟨s, _, rfl⟩ := List.mem_map.mp hx
        exact ⟨hq _ List.mem_cons_self, rfl⟩
    · exact ih (fun q hq' => hq q (List.mem_cons_of_mem _ hq')) x hx

theorem leads_transport {t : Transport} {as : List Answer} {rs : List NaptrRecord} (h : Records (some t) as rs) :
    ∀ r ∈ rs, r.transport = t := by
  induction h with
  | nil => intro r hr; cases hr
  | keep hl _ ih =>
    intro r hr
    rcases List.mem_cons.mp hr with rfl | hr
    · cases hl with
      | name _ ho _ _ => exact (ho t rfl).symm
      | self _ ho _ _ => exact (ho t rfl).symm
    · exact ih r hr
  | drop _ _ ih => exact ih

theorem queries_transport {net : Net} {en : Bool} {host : Str} {t : Transport} {qs : List (Str × Transport)}
    (h : Queries net en host (some t) qs) : ∀ q ∈ qs, q.2 = t := by
  rcases h with ⟨_, as, rs, s, _, hr, _, hp, _, rfl⟩ | ⟨_, rfl⟩
  · intro q hq
    obtain ⟨r, hr', rfl⟩ := List.mem_map.mp hq
    have := leads_transport hr r (hp.mem_iff.mp hr')
    unfold query
    split <;> exact this
  · intro q hq
    simp [fallbackOrder] at hq
    rw [hq]

theorem outcome_transport {net : Net} {en : Bool} {u : SipUri} {ts : List Target} {t : Transport}
    (h : Outcome net en u (some ts)) (hi : Insists u (some t)) : ∀ x ∈ ts, x.transport = t := by
  rw [insists_iff] at hi
  have hadd : ∀ p ips, ∀ x ∈ addressTargets u.host p (orUdp (some t)) ips, x.transport = t := by
    intro p ips x hx
    obtain ⟨i, _, rfl⟩ := List.mem_map.mp hx
    rfl
  have hans : ∀ l, Answers l (some ts) → l = ts := by
    rintro l (⟨_, _, h⟩ | ⟨_, h⟩)
    · simpa using h.symm
    · cases h
  generalize hr : some ts = r at h
  cases h with
  | numeric _ hi' _ =>
    rw [insists_iff, ← hi] at hi'
    subst hi'
    cases hr
    intro x hx
    rw [List.mem_singleton.mp hx]
    rfl
  | port _ _ hi' _ ha =>
    rw [insists_iff, ← hi] at hi'
    subst hi' hr
    rw [← hans _ ha]
    exact hadd _ _
  | servers _ _ hi' hq hs _ ha =>
    rw [insists_iff, ← hi] at hi'
    subst hi' hr
    rw [← hans _ ha]
    exact fun x hx => (srvRun_transport hs (queries_transport hq) x hx).1
  | addresses _ _ hi' _ _ _ _ ha =>
    rw [insists_iff, ← hi] at hi'
    subst hi' hr
    rw [← hans _ ha]
    exact hadd _ _

/-- C58: For a `sips` URI every target uses TLS, whatever the DNS answers. -/
theorem C58_sips (net : Net) (en : Bool) (u : SipUri) (rng : List Nat) (ts : List Target) (hs : u.sips = true)
    (h : resolve net en u rng = some ts) : ∀ t ∈ ts, t.transport = .tls :=
  outcome_transport ((C94_resolve net en u _).mp ⟨rng, h⟩) (Or.inl ⟨hs, rfl⟩)

/-- C58: A `transport` parameter of a `sip` URI decides the transport of every target. -/
theorem C58_param (net : Net) (en : Bool) (u : SipUri) (rng : List Nat) (ts : List Target) (v : Str) (t : Transport)
    (hs : u.sips = false) (hv : u.params.get "transport".toList = some (some v)) (ht : Reads v t)
    (h : resolve net en u rng = some ts) : ∀ x ∈ ts, x.transport = t :=
  outcome_transport ((C94_resolve net en u _).mp ⟨rng, h⟩) (Or.inr (Or.inl ⟨hs, v, t, hv, ht, rfl⟩))

theorem dhcp_tls (inner : Nat → SipUri → Option (List Target)) (u : SipUri) (hs : u.sips = true)
    (hin : ∀ n u' ts, u'.sips = true → inner n u' = some ts → ∀ t ∈ ts, t.transport = .tls) :
    ∀ (ss : List DhcpServer) (n : Nat) (ts : List Target), dhcpTargets inner u n ss = some ts → ∀ t ∈ ts, t.transport = .tls
  | [], n, ts, h => by cases h; simp
  | .ipv4 a :: ss, n, ts, h => by
    simp only [dhcpTargets, Option.map_eq_some_iff] at h
    obtain ⟨rest, h1, rfl⟩ := h
    intro t ht
    rcases List.mem_cons.mp ht with rfl | ht
    · simp [defaultTransport, hs]
    · exact dhcp_tls inner u hs hin ss n rest h1 t ht
  | .domain d :: ss, n, ts, h => by
    simp only [dhcpTargets] at h
    split at h
    · cases h
    · rename_i u' hu'
      have hs' : u'.withoutPort.sips = true := by
        unfold SipUri.withHost at hu'
        split at hu'
        · cases hu'; exact hs
        · cases hu'
      split at h
      · rename_i ts' hts'
        simp only [Option.map_eq_some_iff] at h
        obtain ⟨rest, h1, rfl⟩ := h
        intro t ht
        rcases List.mem_append.mp ht with ht | ht
        · exact hin _ _ _ hs' hts' t ht
        · exact dhcp_tls inner u hs hin ss _ rest h1 t ht
      · exact dhcp_tls inner u hs hin ss _ ts h

theorem limit_some {l ts : List Target} (h : enforceLimit l = some ts) : l = ts := by
  unfold enforceLimit at h
  split at h
  · cases h
  · simpa using h

/-- C58: The resolvers that ask DHCP first keep to this if the resolver behind them does: for a `sips` URI no target without
TLS comes from DHCP. -/
theorem C58_dhcp (inner : Nat → SipUri → Option (List Target)) (u : SipUri) (provider : Option (Option (List DhcpServer)))
    (ts : List Target) (hs : u.sips = true)
    (hin : ∀ n u' ts, u'.sips = true → inner n u' = some ts → ∀ t ∈ ts, t.transport = .tls)
    (h : dhcpResolve provider inner u = some ts ∨ hybridResolve provider inner u = some ts) : ∀ t ∈ ts, t.transport = .tls := by
  have hfall : ∀ n, limited (inner n u) = some ts → ∀ t ∈ ts, t.transport = .tls := by
    intro n h
    unfold limited at h
    split at h
    · cases h
    · rename_i l hl
      rw [← limit_some h]
      exact hin _ _ _ hs hl
  rcases h with h | h
  · unfold dhcpResolve at h
    split at h
    · split at h
      · cases h
      · split at h
        · cases h
        · rename_i l hl
          split at h
          · cases h
          · rw [← limit_some h]
            exact dhcp_tls inner u hs hin _ _ _ hl
    · cases h
  · unfold hybridResolve at h
    split at h
    · split at h
      · exact hfall _ h
      · split at h
        · cases h
        · rename_i l hl
          split at h
          · exact hfall _ h
          · rw [← limit_some h]
            exact dhcp_tls inner u hs hin _ _ _ hl
    · exact hfall _ h

/-! ## C59: the name TLS checks -/

/-- C59 (partial): A target that is an address of the host itself is checked against the host of the URI. The full property
wants this of every target; `C59_srv_name` shows that targets found by SRV records are checked against the name in the
record. -/
theorem C59_addresses_partial (net : Net) (en : Bool) (u : SipUri) (rng : List Nat) (ts : List Target)
    (h : resolve net en u rng = some ts) (hx : u.port ≠ none ∨ ∀ n name, net.srv n name = none) :
    ∀ t ∈ ts, t.sni = u.host := by
  have h' := (C94_resolve net en u _).mp ⟨rng, h⟩
  have hadd : ∀ p x ips, ∀ t ∈ addressTargets u.host p x ips, t.sni = u.host := by
    intro p x ips t ht
    obtain ⟨i, _, rfl⟩ := List.mem_map.mp ht
    rfl
  have hans : ∀ l, Answers l (some ts) → l = ts := by
    rintro l (⟨_, _, h⟩ | ⟨_, h⟩)
    · simpa using h.symm
    · cases h
  generalize hr : some ts = r at h'
  cases h' with
  | numeric _ _ _ =>
    cases hr
    intro t ht
    rw [List.mem_singleton.mp ht]
    rfl
  | port _ _ _ _ ha => subst hr; rw [← hans _ ha]; exact hadd _ _ _
  | servers _ hp _ _ hs hne _ =>
    rcases hx with hx | hx
    · exact absurd hp hx
    · exfalso
      have key : ∀ {n qs ts}, SrvRun net u.sips n qs ts → ts = [] := by
        intro n qs ts hrun
        induction hrun with
        | nil => rfl
        | cons _ hs _ ih =>
          rcases hs with ⟨_, rfl⟩ | ⟨_, _, _, h, _⟩
          · rw [ih]; rfl
          · rw [hx] at h; cases h
      exact hne (key hs)
  | addresses _ _ _ _ _ _ _ ha => subst hr; rw [← hans _ ha]; exact hadd _ _ _

/-! ## Examples and violations -/

/-- A URI with a host, and perhaps a transport. -/
def uriFor (sips : Bool) (host : Str) (transport : Option Str) : SipUri :=
  { raw := [], sips := sips, user := none, host := host, port := none,
    params := (match transport with | some t => [("transport".toList, some t)] | none => []), headers := [] }

/-- A DNS with given SRV records at one name, given NAPTR records, and an IPv4 address for every host. -/
def zone (naptr : List Answer) (name : Str) (srv : List Answer) : Net where
  naptr := fun _ => some naptr
  srv := fun _ n => if n = name then some srv else none
  ip := fun _ => some [⟨false, "192.0.2.1".toList⟩]

/-- Three servers: the one of priority 1 comes first, the one of weight zero last. -/
example : resolve (zone [] "_sip._tcp.example.com".toList
      [.srv 5 0 5060 "c.example.com.".toList, .srv 5 7 5060 "b.example.com.".toList, .srv 1 0 5070 "a.example.com.".toList,
       .srv 0 0 5060 ".".toList]) true (uriFor false "example.com".toList none) [3, 8, 9] =
    some [⟨"a.example.com".toList, 5070, .tcp, 1, none⟩, ⟨"b.example.com".toList, 5060, .tcp, 5, none⟩,
          ⟨"c.example.com".toList, 5060, .tcp, 5, none⟩] := by decide +kernel

/-- The hypotheses of `C57_share` and `C57_share_zero`. -/
example : ([(3, "a".toList, 1), (0, "b".toList, 2)] : List SrvRec)[0]? = some (3, "a".toList, 1) ∧
    0 < (([(3, "a".toList, 1), (0, "b".toList, 2)] : List SrvRec).map (fun r => r.1)).sum ∧
    1 < ([(0, "a".toList, 1), (0, "b".toList, 2)] : List SrvRec).length ∧
    (([(0, "a".toList, 1), (0, "b".toList, 2)] : List SrvRec).map (fun r => r.1)).sum = 0 := by decide

/-- C58 is not vacuous: TLS although NAPTR prefers UDP. -/
example : resolve (zone [.naptr 1 1 "SIP+D2U".toList "_sip._udp.example.com.".toList] "_sips._tcp.example.com".toList
      [.srv 0 0 5061 "a.example.com.".toList]) true (uriFor true "example.com".toList none) [] =
    some [⟨"a.example.com".toList, 5061, .tls, 0, none⟩] := by decide +kernel

/-- The hypotheses of `C58_param`. -/
example : (uriFor false "example.com".toList (some "TCP".toList)).params.get "transport".toList = some (some "TCP".toList) ∧
    Reads "TCP".toList .tcp ∧
    resolve (zone [] [] []) true (uriFor false "example.com".toList (some "TCP".toList)) [] =
      some [⟨"192.0.2.1".toList, 5060, .tcp, 0, some "example.com".toList⟩] := by
  exact ⟨by decide, (reads_iff _ _).mpr (by decide), by decide +kernel⟩

/-- C58: a `sips` URI behind DHCP. -/
example : hybridResolve (some (some [.ipv4 "192.0.2.7".toList, .domain "sip.example.net".toList]))
      (fun _ u => resolve (zone [] [] []) true u []) (uriFor true "example.com".toList none) =
    some [⟨"192.0.2.7".toList, 5061, .tls, 0, none⟩, ⟨"192.0.2.1".toList, 5061, .tls, 0, some "sip.example.net".toList⟩] := by
  decide +kernel

/-- C59 is violated: for `sips:example.com` a target is checked against the name in the SRV record, which whoever answers
the DNS query chooses. -/
theorem C59_srv_name : ∃ (net : Net) (u : SipUri) (ts : List Target), resolve net true u [] = some ts ∧ u.sips = true ∧
    u.host = "example.com".toList ∧ ∃ t ∈ ts, t.transport = .tls ∧ t.sni = "evil.example.net".toList :=
  ⟨zone [] "_sips._tcp.example.com".toList [.srv 0 0 5061 "evil.example.net.".toList], uriFor true "example.com".toList none,
    [⟨"evil.example.net".toList, 5061, .tls, 0, none⟩], by decide +kernel, rfl, rfl, _, List.mem_singleton.mpr rfl, rfl, rfl⟩

/-- C59: That is so for every target that comes from SRV records. -/
theorem C59_srv_all (net : Net) (n : Nat) (host : Str) (t : Transport) (sips : Bool) (rng : List Nat) (ts : List Target)
    (h : (lookupSrv net n host t sips rng).1 = some ts) : ∀ x ∈ ts, x.tlsName = none ∧ x.sni = x.host := by
  obtain ⟨ts', h1, h2⟩ := (C57_order net n host t sips _ _ ((asks_iff _ _ _ _).mpr rfl)).mp ⟨rng, h⟩
  rcases h2 with ⟨_, h2⟩ | ⟨_, h2⟩
  · cases h2
  · cases h2
    rcases h1 with ⟨_, rfl⟩ | ⟨_, _, out, _, _, _, rfl⟩
    · intro x hx; cases hx
    · intro x hx
      obtain ⟨s, _, rfl⟩ := List.mem_map.mp hx
      exact ⟨rfl, rfl⟩

/-- C94: The replacement of a NAPTR record is the name of SRV records, but it is used as if it were a domain: with the
records of RFC 3263's own example the question is for `_sips._tcp._sips._tcp.example.com`, the SRV records are not found and
the address of the host is used instead. -/
theorem C94_naptr_doubled :
    queries (zone [.naptr 50 50 "SIPS+D2T".toList "_sips._tcp.example.com.".toList] [] []) true "example.com".toList none =
      [("_sips._tcp.example.com".toList, .tls)] ∧
    Asks false "_sips._tcp.example.com".toList .tls "_sips._tcp._sips._tcp.example.com".toList ∧
    resolve (zone [.naptr 50 50 "SIPS+D2T".toList "_sips._tcp.example.com.".toList] "_sips._tcp.example.com".toList
        [.srv 0 1 5061 "server1.example.com.".toList]) true (uriFor false "example.com".toList none) [] =
      some [⟨"192.0.2.1".toList, 5060, .udp, 0, some "example.com".toList⟩] :=
  ⟨by decide +kernel, (asks_iff _ _ _ _).mpr (by decide), by decide +kernel⟩

/-- C94: With `transport=tls` and no SRV records TLS is tried on the port for plain SIP. -/
theorem C94_tls_port : resolve (zone [] [] []) true (uriFor false "example.com".toList (some "tls".toList)) [] =
    some [⟨"192.0.2.1".toList, 5060, .tls, 0, some "example.com".toList⟩] := by decide +kernel

/-- C94: A host with more than a hundred targets cannot be reached at all. -/
theorem C94_too_many (net : Net) (en : Bool) (u : SipUri) (rng : List Nat) (ts : List Target)
    (h : resolve net en u rng = some ts) : ts ≠ [] ∧ ts.length ≤ 100 := by
  have hans : ∀ l, Answers l (some ts) → ts ≠ [] ∧ ts.length ≤ 100 := by
    rintro l (⟨h1, h2, h⟩ | ⟨_, h⟩)
    · cases h; exact ⟨h1, h2⟩
    · cases h
  have h' := (C94_resolve net en u _).mp ⟨rng, h⟩
  generalize hr : some ts = r at h'
  cases h' with
  | numeric _ _ _ => cases hr; simp
  | port _ _ _ _ ha => subst hr; exact hans _ ha
  | servers _ _ _ _ _ _ ha => subst hr; exact hans _ ha
  | addresses _ _ _ _ _ _ _ ha => subst hr; exact hans _ ha

/-- The hypotheses of `C59_addresses_partial`. -/
example : resolve (zone [] [] []) true { uriFor true "example.com".toList none with port := some 5071 } [] =
    some [⟨"192.0.2.1".toList, 5071, .tls, 0, some "example.com".toList⟩] := by decide +kernel

/-- IPv6 and IPv4 in turn. -/
example : resolve { zone [] [] [] with
      ip := fun _ => some [⟨false, "192.0.2.1".toList⟩, ⟨false, "192.0.2.2".toList⟩, ⟨true, "2001:db8::1".toList⟩] } true
      (uriFor false "example.com".toList none) [] =
    some [⟨"2001:db8::1".toList, 5060, .udp, 0, some "example.com".toList⟩, ⟨"192.0.2.1".toList, 5060, .udp, 0, some "example.com".toList⟩,
      ⟨"192.0.2.2".toList, 5060, .udp, 0, some "example.com".toList⟩] := by decide +kernel

end Siphon.Dns
