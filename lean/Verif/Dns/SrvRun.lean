import Verif.Dns.SrvLemmas
/-! # SRV lookups give exactly the allowed orders -/
namespace Siphon.Dns
open Spec

theorem bare_trimDots (t : Str) : Bare t (trimDots t) := by
  unfold trimDots
  refine ⟨⟨(t.reverse.takeWhile (fun c => decide (c = '.'))).length, ?_⟩, ?_⟩
  · have h1 := List.takeWhile_append_dropWhile (p := fun c => decide (c = '.')) (l := t.reverse)
    have h2 : t.reverse.takeWhile (fun c => decide (c = '.')) =
        List.replicate (t.reverse.takeWhile (fun c => decide (c = '.'))).length '.' := by
      refine List.eq_replicate_iff.mpr ⟨rfl, fun c hc => ?_⟩
      have := List.all_eq_true.mp (List.all_takeWhile (p := fun c => decide (c = '.')) (l := t.reverse)) c hc
      simpa using this
    have h3 := congrArg List.reverse h1
    rw [List.reverse_append, List.reverse_reverse] at h3
    have h4 : (t.reverse.takeWhile (fun c => decide (c = '.'))).reverse =
        List.replicate (t.reverse.takeWhile (fun c => decide (c = '.'))).length '.' := by
      conv => lhs; rw [h2]
      rw [List.reverse_replicate]
    rw [← h4]
    exact h3.symm
  · intro h' e
    have e2 := congrArg List.reverse e
    rw [List.reverse_reverse, List.reverse_append] at e2
    have := List.head?_dropWhile_not (fun c => decide (c = '.')) t.reverse
    rw [e2] at this
    simp at this

theorem bare_unique {t a b : Str} (ha : Bare t a) (hb : Bare t b) : a = b := by
  obtain ⟨⟨n, e1⟩, h1⟩ := ha
  obtain ⟨⟨m, e2⟩, h2⟩ := hb
  have key : ∀ (n m : Nat) (a b : Str), (∀ h', a ≠ h' ++ ['.']) → (∀ h', b ≠ h' ++ ['.']) →
      a ++ List.replicate n '.' = b ++ List.replicate m '.' → a = b := by
    intro n
    induction n with
    | zero =>
      intro m a b ha hb e
      cases m with
      | zero => simpa using e
      | succ m =>
        rw [List.replicate_succ', ← List.append_assoc] at e
        exact absurd ((List.append_nil a).symm.trans e) (ha _)
    | succ n ih =>
      intro m a b ha hb e
      cases m with
      | zero =>
        rw [List.replicate_succ', ← List.append_assoc] at e
        exact absurd ((List.append_nil b).symm.trans e.symm) (hb _)
      | succ m =>
        rw [List.replicate_succ', List.replicate_succ', ← List.append_assoc, ← List.append_assoc] at e
        exact ih m a b ha hb (List.append_cancel_right e)
  exact key n m a b h1 h2 (e1 ▸ e2)

theorem bare_iff (t h : Str) : Bare t h ↔ h = trimDots t :=
  ⟨fun e => bare_unique e (bare_trimDots t), fun e => e ▸ bare_trimDots t⟩

theorem trimDots_dot : trimDots ".".toList = [] := by decide

/-- The records of an answer exist and are unique. -/
theorem usable_groups : ∀ (as : List Answer) (g : List (Nat × List SrvRec)), Ordered g →
    Ordered (groups as g) ∧ ∀ rs, Usable as rs → (flat (groups as g)).Perm (flat g ++ rs)
  | [], g, ho => ⟨ho, fun rs h => by cases h; simp [groups]⟩
  | .srv p w port t :: as, g, ho => by
    simp only [groups]
    by_cases hd : trimDots t = []
    · have e : (if t = ".".toList then groups as g else
          if (trimDots t).isEmpty = true then groups as g else groups as (addGroup p (w, trimDots t, port) g)) = groups as g := by
        rw [hd]; simp
      rw [e]
      obtain ⟨h1, h2⟩ := usable_groups as g ho
      refine ⟨h1, fun rs h => ?_⟩
      cases h with
      | keep hb hne hu => exact absurd (((bare_iff _ _).mp hb).trans hd) hne
      | root hb hu => exact h2 _ hu
      | other hn hu => exact absurd rfl (hn p w port t)
    · have e0 : t ≠ ".".toList := by rintro rfl; exact hd trimDots_dot
      have e : (trimDots t).isEmpty = false := by
        cases h : trimDots t with
        | nil => exact absurd h hd
        | cons _ _ => rfl
      rw [if_neg e0, e, if_neg (by decide)]
      obtain ⟨h1, h2⟩ := usable_groups as (addGroup p (w, trimDots t, port) g) (addGroup_ordered _ _ _ ho)
      refine ⟨h1, fun rs h => ?_⟩
      cases h with
      | keep hb hne hu =>
        rw [(bare_iff _ _).mp hb]
        refine (h2 _ hu).trans ?_
        have := (addGroup_perm p (w, trimDots t, port) g).append_right
        refine (this _).trans ?_
        rw [List.append_assoc]
        exact List.Perm.refl _
      | root hb hu => exact absurd ((bare_iff _ _).mp hb).symm hd
      | other hn hu => exact absurd rfl (hn p w port t)
  | .naptr a b c d :: as, g, ho => by
    obtain ⟨h1, h2⟩ := usable_groups as g ho
    refine ⟨h1, fun rs h => ?_⟩
    cases h with
    | other hn hu => exact h2 _ hu
  | .other :: as, g, ho => by
    obtain ⟨h1, h2⟩ := usable_groups as g ho
    refine ⟨h1, fun rs h => ?_⟩
    cases h with
    | other hn hu => exact h2 _ hu

theorem usable_exists : ∀ as : List Answer, ∃ rs, Usable as rs
  | [] => ⟨[], .nil⟩
  | .srv p w port t :: as => by
    obtain ⟨rs, h⟩ := usable_exists as
    by_cases hd : trimDots t = []
    · exact ⟨rs, .root ((bare_iff _ _).mpr hd.symm) h⟩
    · exact ⟨_, .keep (bare_trimDots t) hd h⟩
  | .naptr a b c d :: as => by
    obtain ⟨rs, h⟩ := usable_exists as
    exact ⟨rs, .other (by intros; simp) h⟩
  | .other :: as => by
    obtain ⟨rs, h⟩ := usable_exists as
    exact ⟨rs, .other (by intros; simp) h⟩

/-- A record of priority `p`. -/
def toSrv (p : Nat) (r : SrvRec) : Srv := ⟨p, r.1, r.2.1, r.2.2⟩

def ofSrv (s : Srv) : SrvRec := (s.weight, s.host, s.port)

theorem flat_cons (p : Nat) (rs : List SrvRec) (g) : flat ((p, rs) :: g) = rs.map (toSrv p) ++ flat g := by
  simp [flat, toSrv]

theorem flat_priority {g : List (Nat × List SrvRec)} {s : Srv} (h : s ∈ flat g) : ∃ e ∈ g, s.priority = e.1 := by
  unfold flat at h
  obtain ⟨e, he, hs⟩ := List.mem_flatMap.mp h
  obtain ⟨r, _, rfl⟩ := List.mem_map.mp hs
  exact ⟨e, he, rfl⟩

theorem groupTargets_sound (tr : Transport) : ∀ (g : List (Nat × List SrvRec)) (rng : List Nat), Ordered g →
    ∃ out : List Srv, (groupTargets tr g rng).1 = out.map (srvTarget tr) ∧ out.Perm (flat g) ∧ out.Pairwise Before
  | [], rng, _ => ⟨[], rfl, List.Perm.refl _, List.Pairwise.nil⟩
  | (p, rs) :: g, rng, ho => by
    obtain ⟨ho1, ho2⟩ := List.pairwise_cons.mp ho.1
    obtain ⟨o1, e1, p1, z1⟩ := selectGo_sound rs.length rs rng (Nat.le_refl _)
    obtain ⟨o2, e2, p2, z2⟩ := groupTargets_sound tr g (selectByWeight rs rng).2
      ⟨ho2, fun e he => ho.2 e (List.mem_cons_of_mem _ he)⟩
    refine ⟨o1.map (toSrv p) ++ o2, ?_, ?_, ?_⟩
    · rw [List.map_append, ← e2]
      simp only [groupTargets, selectByWeight, e1, List.map_map]
      rfl
    · rw [flat_cons]
      exact (p1.map _).append p2
    · refine List.pairwise_append.mpr ⟨?_, z2, ?_⟩
      · refine List.pairwise_map.mpr (z1.imp ?_)
        intro a b h
        exact Or.inr ⟨rfl, h⟩
      · intro a ha b hb
        obtain ⟨r, _, rfl⟩ := List.mem_map.mp ha
        obtain ⟨e, he, hp⟩ := flat_priority (p2.mem_iff.mp hb)
        exact Or.inl (by rw [hp]; exact ho1 e he)

/-- Those of the lowest priority value come first. -/
theorem split_first (p : Nat) : ∀ out : List Srv, out.Pairwise Before → (∀ s ∈ out, p ≤ s.priority) →
    out = out.filter (fun s => decide (s.priority = p)) ++ out.filter (fun s => !decide (s.priority = p))
  | [], _, _ => rfl
  | s :: out, hw, hp => by
    obtain ⟨h1, h2⟩ := List.pairwise_cons.mp hw
    have ih := split_first p out h2 (fun x hx => hp x (List.mem_cons_of_mem _ hx))
    by_cases hs : s.priority = p
    · simp only [List.filter_cons, hs, decide_true, if_true, Bool.not_true, Bool.false_eq_true, if_false, List.cons_append]
      rw [← ih]
    · have hall : ∀ x ∈ out, x.priority ≠ p := by
        intro x hx
        have := hp s List.mem_cons_self
        rcases h1 x hx with h | ⟨h, _⟩ <;> omega
      have hf : out.filter (fun s => decide (s.priority = p)) = [] :=
        List.filter_eq_nil_iff.mpr (fun x hx => by simp [hall x hx])
      have hg : out.filter (fun s => !decide (s.priority = p)) = out :=
        List.filter_eq_self.mpr (fun x hx => by simp [hall x hx])
      simp only [List.filter_cons, hs, decide_false, Bool.not_false, Bool.false_eq_true, if_false, if_true, hf, hg,
        List.nil_append]

theorem toSrv_ofSrv {p : Nat} {l : List Srv} (h : ∀ s ∈ l, s.priority = p) : (l.map ofSrv).map (toSrv p) = l := by
  rw [List.map_map]
  conv => rhs; rw [← List.map_id l]
  refine List.map_congr_left ?_
  intro s hs
  show toSrv p (ofSrv s) = s
  unfold toSrv ofSrv
  rw [← h s hs]

theorem ofSrv_toSrv (p : Nat) (l : List SrvRec) : (l.map (toSrv p)).map ofSrv = l := by
  rw [List.map_map]
  conv => rhs; rw [← List.map_id l]
  exact List.map_congr_left (fun s _ => rfl)

theorem groupTargets_reach (tr : Transport) : ∀ (g : List (Nat × List SrvRec)) (out : List Srv), Ordered g →
    out.Perm (flat g) → out.Pairwise Before →
    ∃ xs, ∀ rest, groupTargets tr g (xs ++ rest) = (out.map (srvTarget tr), rest)
  | [], out, _, hp, _ => by
    rw [hp.eq_nil]
    exact ⟨[], fun rest => rfl⟩
  | (p, rs) :: g, out, ho, hp, hw => by
    obtain ⟨ho1, ho2⟩ := List.pairwise_cons.mp ho.1
    have hge : ∀ s ∈ flat ((p, rs) :: g), p ≤ s.priority := by
      intro s hs
      obtain ⟨e, he, h⟩ := flat_priority hs
      rw [h]
      rcases List.mem_cons.mp he with rfl | he
      · exact Nat.le_refl _
      · exact Nat.le_of_lt (ho1 e he)
    have hsplit := split_first p out hw (fun s hs => hge s (hp.mem_iff.mp hs))
    have hfl : (flat ((p, rs) :: g)).filter (fun s => decide (s.priority = p)) = rs.map (toSrv p) := by
      rw [flat_cons, List.filter_append]
      have h1 : (rs.map (toSrv p)).filter (fun s => decide (s.priority = p)) = rs.map (toSrv p) := by
        refine List.filter_eq_self.mpr (fun x hx => ?_)
        obtain ⟨r, _, rfl⟩ := List.mem_map.mp hx
        simp [toSrv]
      have h2 : (flat g).filter (fun s => decide (s.priority = p)) = [] := by
        refine List.filter_eq_nil_iff.mpr (fun x hx => ?_)
        obtain ⟨e, he, h⟩ := flat_priority hx
        have := ho1 e he
        simp only [h, decide_eq_true_eq]
        simp only at this
        omega
      rw [h1, h2, List.append_nil]
    have hfr : (flat ((p, rs) :: g)).filter (fun s => !decide (s.priority = p)) = flat g := by
      rw [flat_cons, List.filter_append]
      have h1 : (rs.map (toSrv p)).filter (fun s => !decide (s.priority = p)) = [] := by
        refine List.filter_eq_nil_iff.mpr (fun x hx => ?_)
        obtain ⟨r, _, rfl⟩ := List.mem_map.mp hx
        simp [toSrv]
      have h2 : (flat g).filter (fun s => !decide (s.priority = p)) = flat g := by
        refine List.filter_eq_self.mpr (fun x hx => ?_)
        obtain ⟨e, he, h⟩ := flat_priority hx
        have := ho1 e he
        simp only at this
        simp only [h, Bool.not_eq_true', decide_eq_false_iff_not]
        omega
      rw [h1, h2, List.nil_append]
    have p1 := hp.filter (fun s => decide (s.priority = p))
    have p2 := hp.filter (fun s => !decide (s.priority = p))
    rw [hfl] at p1
    rw [hfr] at p2
    have hpr : ∀ s ∈ out.filter (fun s => decide (s.priority = p)), s.priority = p := by
      intro s hs
      simpa using (List.mem_filter.mp hs).2
    have q1 : ((out.filter (fun s => decide (s.priority = p))).map ofSrv).Perm rs := by
      have := p1.map ofSrv
      rwa [ofSrv_toSrv] at this
    have z1 : ZeroLast ((out.filter (fun s => decide (s.priority = p))).map ofSrv) := by
      refine List.pairwise_map.mpr ?_
      refine List.Pairwise.imp_of_mem ?_ (hw.filter _)
      intro a b ha hb hab
      rcases hab with h | ⟨_, h⟩
      · have := hpr a ha; have := hpr b hb; omega
      · exact h
    obtain ⟨xs1, h1⟩ := selectGo_reach rs.length rs _ (Nat.le_refl _) q1 z1
    obtain ⟨xs2, h2⟩ := groupTargets_reach tr g _ ⟨ho2, fun e he => ho.2 e (List.mem_cons_of_mem _ he)⟩ p2 (hw.filter _)
    refine ⟨xs1 ++ xs2, fun rest => ?_⟩
    simp only [groupTargets, selectByWeight, List.append_assoc, h1, h2]
    conv => rhs; rw [hsplit, List.map_append]
    congr 2
    rw [List.map_map]
    conv => rhs; rw [← toSrv_ofSrv hpr]
    rw [List.map_map (g := srvTarget tr), List.map_map (g := srvTarget tr ∘ toSrv p), List.map_map]
    rfl

theorem ordered_nil : Ordered [] := ⟨List.Pairwise.nil, by simp⟩

/-- What a lookup may give is exactly what is allowed. -/
theorem lookup_sound (a : Option (List Answer)) (tr : Transport) (as : List Answer) (rng : List Nat) (h : a = some as) :
    SrvAnswer a tr (groupTargets tr (groups as []) rng).1 := by
  obtain ⟨ho, hu⟩ := usable_groups as [] ordered_nil
  obtain ⟨rs, hrs⟩ := usable_exists as
  obtain ⟨out, e, p, w⟩ := groupTargets_sound tr (groups as []) rng ho
  exact Or.inr ⟨as, rs, out, h, hrs, ⟨p.trans (hu rs hrs), w⟩, e⟩

theorem lookup_reach (tr : Transport) (as : List Answer) (ts : List Target) (h : SrvAnswer (some as) tr ts) :
    ∃ xs, ∀ rest, groupTargets tr (groups as []) (xs ++ rest) = (ts, rest) := by
  rcases h with ⟨h, _⟩ | ⟨as', rs, out, h, hu, ⟨hp, hw⟩, rfl⟩
  · cases h
  · cases h
    obtain ⟨ho, hg⟩ := usable_groups as [] ordered_nil
    exact groupTargets_reach tr _ out ho (hp.trans (hg rs hu).symm) hw

theorem asks_iff (sips : Bool) (h : Str) (t : Transport) (name : Str) : Asks sips h t name ↔ name = srvName h t sips := by
  constructor
  · intro e
    cases e <;> cases sips <;> rfl
  · rintro rfl
    cases t <;> cases sips
    · exact Asks.udp
    · exact Asks.udp
    · exact Asks.tcp
    · exact Asks.tcp
    · exact Asks.tls
    · exact Asks.tls
    · exact Asks.ws
    · exact Asks.ws
    · exact Asks.wss
    · exact Asks.wss
    · exact Asks.sctp
    · exact Asks.sctp
    · exact Asks.tlsSctp
    · exact Asks.tlsSctp

theorem srvAll_sound (net : Net) (sips : Bool) : ∀ (qs : List (Str × Transport)) (n : Nat) (rng : List Nat),
    SrvRun net sips n qs (srvAll net sips n qs rng)
  | [], n, rng => .nil
  | (h, t) :: qs, n, rng => by
    simp only [srvAll, lookupSrv]
    have ha : Asks sips h t (srvName h t sips) := (asks_iff _ _ _ _).mpr rfl
    cases hn : net.srv n (srvName h t sips) with
    | none =>
      simp only
      exact SrvRun.cons (ts := []) ha (Or.inl ⟨hn, rfl⟩) (srvAll_sound net sips qs (n + 1) rng)
    | some as =>
      simp only
      have hs := lookup_sound (net.srv n (srvName h t sips)) t as rng hn
      cases hg : (groupTargets t (groups as []) rng).1 with
      | nil =>
        rw [hg] at hs
        simp only [List.isEmpty_nil, if_true]
        exact SrvRun.cons (ts := []) ha hs (srvAll_sound net sips qs (n + 1) _)
      | cons x xs =>
        rw [hg] at hs
        simp only [List.isEmpty_cons, Bool.false_eq_true, if_false]
        exact SrvRun.cons ha hs (srvAll_sound net sips qs (n + 1) _)

theorem srvAll_reach (net : Net) (sips : Bool) : ∀ (qs : List (Str × Transport)) (n : Nat) (ts : List Target),
    SrvRun net sips n qs ts → ∃ rng, srvAll net sips n qs rng = ts
  | [], n, ts, h => by cases h; exact ⟨[], rfl⟩
  | (h, t) :: qs, n, ts, hr => by
    cases hr with
    | cons ha hs hr =>
      rename_i name ts rest
      rw [(asks_iff _ _ _ _).mp ha] at hs
      obtain ⟨rng, hrng⟩ := srvAll_reach net sips qs (n + 1) rest hr
      cases hn : net.srv n (srvName h t sips) with
      | none =>
        rw [hn] at hs
        rcases hs with ⟨_, rfl⟩ | ⟨as, rs, out, h', _⟩
        · exact ⟨rng, by simp only [srvAll, lookupSrv, hn, hrng, List.nil_append]⟩
        · cases h'
      | some as =>
        rw [hn] at hs
        obtain ⟨xs, hxs⟩ := lookup_reach t as ts hs
        refine ⟨xs ++ rng, ?_⟩
        simp only [srvAll, lookupSrv, hn, hxs rng]
        cases ts with
        | nil => simp only [List.isEmpty_nil, if_true, hrng, List.nil_append]
        | cons x ts => simp only [List.isEmpty_cons, Bool.false_eq_true, if_false, hrng]

end Siphon.Dns
