import Verif.Registrar.StoreLemmas
/-!
# C40, C41: the location store
-/
set_option linter.unusedSimpArgs false
namespace Siphon.Registrar
open Spec

namespace Demo
def b (aor contact : String) (secs : Nat) : Binding :=
  { aor := aor.toList, contact := contact.toList, expires := secs * SEC, callId := "c1".toList, cseq := 1,
    q := ['1'], userAgent := none, path := none, flowToken := none, instanceId := none, regId := none }

/-- two contacts, a refresh, an expiry, a removal and a clean-up -/
def history : List StoreOp :=
  [.upsert (b "sip:a@x" "sip:a@1" 100) 0, .upsert (b "sip:a@x" "sip:a@2" 60) (5 * SEC),
   .upsert (b "sip:b@x" "sip:b@1" 100) (6 * SEC), .lookup "sip:a@x".toList (7 * SEC) (7 * SEC + 1),
   .upsert (b "sip:a@x" "sip:a@1" 70) (50 * SEC), .cleanup (66 * SEC),
   .remove "sip:b@x".toList "sip:b@1".toList (67 * SEC)]
end Demo

theorem after_names {aor c : Str} {op : StoreOp} {ok : Bool} {cur : Option (Binding × Nat)}
    (h : ∀ b t, cur = some (b, t) → b.aor = aor ∧ b.contact = c) (b : Binding) (t : Nat)
    (e : after aor c op ok cur = some (b, t)) : b.aor = aor ∧ b.contact = c := by
  cases op with
  | upsert b' t' =>
    simp only [after] at e
    split at e
    · rename_i hc
      simp only [Option.some.injEq, Prod.mk.injEq] at e
      obtain ⟨rfl, _⟩ := e
      exact hc.2
    · exact h b t e
  | remove a c' t' =>
    simp only [after] at e
    split at e
    · simp at e
    · exact h b t e
  | removeAll a t' =>
    simp only [after] at e
    split at e
    · simp at e
    · exact h b t e
  | lookup a t1 t2 => exact h b t e
  | cleanup t' => exact h b t e

theorem latest_names (aor c : Str) : ∀ (tr : List (StoreOp × Bool)) (cur : Option (Binding × Nat)),
    (∀ b t, cur = some (b, t) → b.aor = aor ∧ b.contact = c) → ∀ b t, latest.go aor c tr cur = some (b, t) →
    b.aor = aor ∧ b.contact = c
  | [], _, h, b, t, e => h b t e
  | (_, _) :: tr, _, h, b, t, e => latest_names aor c tr _ (fun _ _ e' => after_names h _ _ e') b t e

/-- C40: after any history of calls in which the clock does not go back, looking up an address-of-record
returns a binding for a contact exactly when its latest registration has not been removed and has not
expired; the binding is that registration with the lifetime that remains; no contact is listed twice. -/
theorem C40_lookup (ops : List StoreOp) (T : Nat) (ht : Timed 0 ops T) (aor : Str) (t₁ t₂ : Nat)
    (h1 : T ≤ t₁) (h2 : t₁ ≤ t₂) :
    (∀ x, x ∈ ((Store.run [] ops).lookup aor t₁ t₂).1 ↔
      ∃ b t0, latest aor x.contact (trace [] ops) = some (b, t0) ∧ t₂ < t0 + b.expires ∧
        x = { b with expires := t0 + b.expires - t₂ }) ∧
    ((((Store.run [] ops).lookup aor t₁ t₂).1).map (·.contact)).Nodup := by
  have hg : Good (Store.run [] ops) := good_run ops [] good_init
  have hh := holds_run ops 0 T [] (fun _ _ => none) good_init
    (fun a t y _ => by simp [Store.at]) ht
  rw [lookup_fst_le _ _ _ _ h2]
  constructor
  · intro x
    rw [List.mem_map]
    constructor
    · rintro ⟨y, hy, rfl⟩
      obtain ⟨hm, hlt⟩ := List.mem_filter.mp hy
      simp only [gt_iff_lt, decide_eq_true_eq] at hlt
      obtain ⟨b, t0, hl, ha, rfl, hlt'⟩ := (hh aor t₂ y (by omega)).mp ⟨hm, hlt⟩
      refine ⟨b, t0, ?_, hlt', ?_⟩
      · rw [latest_eq]; exact hl
      · subst ha; rfl
    · rintro ⟨b, t0, hl, hlt, hx⟩
      rw [latest_eq] at hl
      obtain ⟨ha, hc⟩ := latest_names aor x.contact _ _ (by simp) _ _ hl
      refine ⟨b.stored t0, List.mem_filter.mpr ⟨?_, ?_⟩, ?_⟩
      · refine ((hh aor t₂ (b.stored t0) (by omega)).mpr ⟨b, t0, ?_, ha, rfl, hlt⟩).1
        show latest.go aor b.contact _ _ = _
        rw [hc]; exact hl
      · simpa [Binding.stored] using hlt
      · rw [hx]; subst ha; rfl
  · rw [List.map_map]
    exact (List.Sublist.map _ (List.filter_sublist)).nodup (hg.contacts aor)

example : Timed 0 Demo.history (70 * SEC) := by simp only [Timed, Demo.history, start, finish]; decide
example : ((Store.run [] Demo.history).lookup "sip:a@x".toList (70 * SEC) (70 * SEC)).1
    = [Demo.b "sip:a@x" "sip:a@1" 50] := by decide +kernel

theorem total_run : ∀ (ops : List StoreOp) (s : Store), Good s → s.total ≤ MAX_TOTAL_BINDINGS →
    (s.run ops).total ≤ MAX_TOTAL_BINDINGS
  | [], _, _, h => h
  | op :: ops, s, hg, h => total_run ops (s.step op) (good_step s op hg) (total_step s op hg.keys h)

/-- C41: whatever the history, a contact has at most one binding under an address-of-record, an
address-of-record has at most 20 bindings, and the store at most 100000 (expired ones included). -/
theorem C41_bounds (ops : List StoreOp) :
    (∀ aor t₁ t₂, ((((Store.run [] ops).lookup aor t₁ t₂).1).map (·.contact)).Nodup ∧
      (((Store.run [] ops).lookup aor t₁ t₂).1).length ≤ 20) ∧
    (∀ e ∈ Store.run [] ops, (e.2.map (·.contact)).Nodup ∧ e.2.length ≤ 20) ∧
    ((Store.run [] ops).map (fun e => e.2.length)).sum ≤ 100000 := by
  have hg : Good (Store.run [] ops) := good_run ops [] good_init
  refine ⟨fun aor t₁ t₂ => ?_, fun e he => ?_, ?_⟩
  · rw [lookup_fst, List.map_map, List.length_map]
    exact ⟨(List.Sublist.map _ (List.filter_sublist.trans List.filter_sublist)).nodup (hg.contacts aor),
      Nat.le_trans (List.length_filter_le _ _) (Nat.le_trans (List.length_filter_le _ _) (hg.few aor))⟩
  · have : (Store.run [] ops).at e.1 = e.2 := by
      unfold Store.at
      rw [Tbl.get_of_mem _ e.1 e.2 hg.keys he]
    have h1 := hg.contacts e.1
    have h2 := hg.few e.1
    rw [this] at h1 h2
    exact ⟨h1, h2⟩
  · exact total_run ops [] good_init (Nat.zero_le _)

/-- Registering the same contact again replaces its binding, even under another flow: two registrations
that differ in instance and reg-id (RFC 5626) do not coexist, although the comment at lib.rs 507-512
says they do. -/
theorem C41_flows_collide (s : Store) (b1 b2 : Binding) (t1 t2 : Nat) (ha : b1.aor = b2.aor)
    (hc : b1.contact = b2.contact) (h2 : ((s.upsert b1 t1).2.upsert b2 t2).1 = .ok ()) :
    ∀ x ∈ (((s.upsert b1 t1).2.upsert b2 t2).2.lookup b1.aor t2 t2).1, x.contact = b1.contact →
      x.instanceId = b2.instanceId ∧ x.regId = b2.regId := by
  intro x hx hxc
  rw [lookup_fst_le _ _ _ _ (Nat.le_refl _), at_upsert, if_pos ⟨by rw [h2]; rfl, ha⟩] at hx
  obtain ⟨y, hy, rfl⟩ := List.mem_map.mp hx
  rcases List.mem_append.mp (List.mem_filter.mp hy).1 with hm | hm
  · have := (List.mem_filter.mp hm).2
    have hyc : y.contact = b1.contact := hxc
    simp [hyc, hc] at this
  · rw [List.mem_singleton.mp hm]; exact ⟨rfl, rfl⟩

example : let b1 := { Demo.b "sip:a@x" "sip:a@1" 100 with regId := some 1 }
    let b2 := { Demo.b "sip:a@x" "sip:a@1" 100 with regId := some 2 }
    ((Store.upsert [] b1 0).2.upsert b2 1).1 = .ok () ∧
    ((((Store.upsert [] b1 0).2.upsert b2 1).2.lookup "sip:a@x".toList 2 2).1).map (·.regId) = [some 2] := by
  refine ⟨rfl, ?_⟩; decide +kernel

/-! ### A full store refuses refreshes -/

/-- the `i`-th of many users -/
def nth (i : Nat) : Binding := { Demo.b "" "sip:c@h" 3600 with aor := showNat i }

theorem fill : ∀ n, n ≤ MAX_TOTAL_BINDINGS →
    (Store.run [] ((List.range n).map (fun i => StoreOp.upsert (nth i) 0))).total = n ∧
    ∀ i, (Store.run [] ((List.range n).map (fun i => StoreOp.upsert (nth i) 0))).at (showNat i)
      = if i < n then [(nth i).stored 0] else []
  | 0, _ => ⟨rfl, fun i => by simp [Store.run, Store.at]⟩
  | n + 1, hn => by
    obtain ⟨h1, h2⟩ := fill n (by omega)
    have hg := good_run ((List.range n).map (fun i => StoreOp.upsert (nth i) 0)) [] good_init
    have e : Store.run [] ((List.range (n + 1)).map (fun i => StoreOp.upsert (nth i) 0))
        = ((Store.run [] ((List.range n).map (fun i => StoreOp.upsert (nth i) 0))).upsert (nth n) 0).2 := by
      rw [List.range_succ, List.map_append]
      simp only [Store.run, List.foldl_append, List.map_cons, List.map_nil, List.foldl_cons, List.foldl_nil]
      rfl
    rw [e]
    generalize Store.run [] ((List.range n).map (fun i => StoreOp.upsert (nth i) 0)) = s at h1 h2 hg ⊢
    have ha : s.at (showNat n) = [] := by rw [h2]; simp
    have hup : s.upsert (nth n) 0 = (.ok (), Tbl.insert s (showNat n) [(nth n).stored 0]) := by
      unfold Store.upsert
      rw [if_neg (by omega)]
      have : (nth n).aor = showNat n := rfl
      rw [this, ha]
      rfl
    rw [hup]
    constructor
    · have := total_insert s (showNat n) [(nth n).stored 0] hg.keys
      rw [ha] at this
      simp only [List.length_nil, List.length_singleton] at this
      simp only
      omega
    · intro i
      by_cases hi : i = n
      · subst hi; simp only [at_insert_self]; simp
      · simp only
        rw [at_insert_ne _ _ (fun hh => hi (showNat_inj hh)), h2]
        by_cases h3 : i < n
        · rw [if_pos h3, if_pos (by omega)]
        · rw [if_neg h3, if_neg (by omega)]

/-- C41, the price of the total limit: there is a reachable store in which a user is registered and a
refresh of that very registration is refused, although it would not add a binding. -/
theorem C41_full_refuses_refresh : ∃ ops : List StoreOp, ∃ b : Binding,
    ((Store.run [] ops).lookup b.aor 0 0).1 = [b] ∧
    ((Store.run [] ops).upsert b 0).1 = .error .tooMany := by
  refine ⟨(List.range MAX_TOTAL_BINDINGS).map (fun i => StoreOp.upsert (nth i) 0), nth 0, ?_, ?_⟩
  · have h := (fill MAX_TOTAL_BINDINGS (Nat.le_refl _)).2 0
    rw [lookup_fst_le _ _ _ _ (Nat.le_refl _)]
    have : (nth 0).aor = showNat 0 := rfl
    rw [this, h, if_pos (by unfold MAX_TOTAL_BINDINGS; omega)]
    decide +kernel
  · have h := (fill MAX_TOTAL_BINDINGS (Nat.le_refl _)).1
    unfold Store.upsert
    rw [if_pos (Nat.le_of_eq h.symm)]

/-- The number reported by a clean-up is the number of expired bindings, and afterwards none is left. -/
theorem C40_cleanup (ops : List StoreOp) (t : Nat) :
    ((Store.run [] ops).cleanup t).1
        = (((Store.run [] ops).flatMap (·.2)).filter (fun x => decide (x.expiresAt ≤ t))).length ∧
    ∀ e ∈ ((Store.run [] ops).cleanup t).2, e.2 ≠ [] ∧ ∀ x ∈ e.2, t < x.expiresAt := by
  constructor
  · generalize Store.run [] ops = s
    unfold Store.cleanup
    simp only
    induction s with
    | nil => rfl
    | cons e s ih =>
      rw [List.map_cons, total_cons, total_cons, List.flatMap_cons, List.filter_append, List.length_append, ← ih]
      have h1 := total_map_le (fun e => e.2.filter (fun x => x.expiresAt > t)) (fun e => List.length_filter_le _ _) s
      have h2 : ∀ l : List Stored, (l.filter (fun x => decide (x.expiresAt > t))).length
          + (l.filter (fun x => decide (x.expiresAt ≤ t))).length = l.length := by
        intro l
        induction l with
        | nil => rfl
        | cons x l ih =>
          simp only [List.filter_cons]
          by_cases hx : x.expiresAt > t
          · have : ¬ x.expiresAt ≤ t := by omega
            simp only [hx, this, decide_true, decide_false, if_true, List.length_cons, Bool.false_eq_true, if_false]
            omega
          · have : x.expiresAt ≤ t := by omega
            simp only [hx, this, decide_true, decide_false, if_true, List.length_cons, Bool.false_eq_true, if_false]
            omega
      have h3 := h2 e.2
      simp only at h1 ⊢
      omega
  · intro e he
    unfold Store.cleanup at he
    obtain ⟨hm, hne⟩ := List.mem_filter.mp he
    obtain ⟨e', _, rfl⟩ := List.mem_map.mp hm
    refine ⟨by simpa [List.isEmpty_iff] using hne, fun x hx => ?_⟩
    simpa using (List.mem_filter.mp hx).2

example : ((Store.run [] Demo.history).cleanup (130 * SEC)).1 = 1 := by decide +kernel

end Siphon.Registrar
