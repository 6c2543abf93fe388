import Verif.SecAgree.Spec
import Verif.Base.Strip
import Verif.Base.TextLemmas
import Verif.Base.CharLemmas
import Verif.Core.UriTextLemmas
import Verif.Core.HeadersProps
import Verif.Core.UriProps
set_option linter.unusedSimpArgs false
/-!
# C135: the security mechanism that is agreed
-/
namespace Siphon.SecAgree
open TextSpec HdrSpec Spec

theorem validMechanism_iff (s : Str) : validMechanism s = true ↔ MechName s := by
  unfold validMechanism MechName MAX_MECHANISM_NAME_LENGTH
  simp only [Bool.and_eq_true, Bool.not_eq_true', List.isEmpty_eq_false_iff, decide_eq_false_iff_not, Nat.not_lt, gt_iff_lt,
    List.any_eq_false, Bool.or_eq_true, not_or, Bool.not_eq_true, and_assoc]

theorem validName_iff (s : Str) : validName s = true ↔ GoodName s := by
  unfold validName GoodName MAX_PARAM_NAME_LENGTH
  simp only [Bool.and_eq_true, Bool.not_eq_true', List.isEmpty_eq_false_iff, decide_eq_false_iff_not, Nat.not_lt, gt_iff_lt,
    List.any_eq_false, Bool.or_eq_true, not_or, Bool.not_eq_true, and_assoc, beq_iff_eq, ne_eq]

theorem validValue_iff (s : Str) : validValue s = true ↔ GoodValue s := by
  unfold validValue GoodValue MAX_PARAM_VALUE_LENGTH
  simp only [Bool.and_eq_true, Bool.not_eq_true', decide_eq_false_iff_not, Nat.not_lt, gt_iff_lt,
    List.any_eq_false, Bool.not_eq_true]

theorem parseQ_iff (F : Floats) (t : Str) (q : F32) : parseQ F t = some q ↔ QNumber F t q := by
  unfold parseQ QNumber validQ
  cases h : F.read t with
  | none => simp
  | some x =>
    cases x with
    | none => simp
    | some y =>
      simp only [Bool.and_eq_true, decide_eq_true_eq, Option.ite_none_right_eq_some, Option.some.injEq]
      constructor
      · rintro ⟨h, rfl⟩; exact ⟨rfl, h⟩
      · rintro ⟨rfl, h⟩; exact ⟨h, rfl⟩

theorem parseQ_none (F : Floats) (t : Str) : parseQ F t = none ↔ ∀ q, ¬ QNumber F t q := by
  cases h : parseQ F t with
  | none => simp only [true_iff]; intro q hq; rw [(parseQ_iff F t q).2 hq] at h; cases h
  | some q => simp only [reduceCtorEq, false_iff]; exact fun hn => hn q ((parseQ_iff F t q).1 h)

theorem ordered_iff (m : BMap (Option Str)) : Ordered m ↔ UriP.Sorted m := (UriText.sorted_iff m).symm

theorem isQ_iff (k : Str) : eqIgnoreCase k ['q'] = true ↔ k = ['Q'] ∨ k = ['q'] := by
  rw [← sameName_iff]
  constructor
  · intro h
    rw [sameName_iff] at h
    unfold eqIgnoreCase lower at h
    rw [beq_iff_eq] at h
    match k, h with
    | [], h => simp at h
    | _ :: _ :: _, h => simp at h
    | [c], h =>
      simp only [List.map_cons, List.map_nil, List.cons.injEq, and_true] at h
      have hq : ('q' : Char).toLower = 'q' := by decide
      rw [hq] at h
      unfold Char.toLower at h
      split at h
      · rename_i hc
        left
        have : c.val.toNat + 32 = 113 := by
          have := congrArg (fun x : Char => x.val.toNat) h
          simp only at this
          have h2 : (c.val + 32).toNat = 113 := by simpa using this
          rw [UInt32.toNat_add] at h2
          have : c.val.toNat ≤ 90 := by
            have := hc.2
            exact this
          have h3 : (32 : UInt32).toNat = 32 := rfl
          omega
        have hc' : c = 'Q' := by
          apply Char.ext; apply UInt32.toNat.inj; show c.val.toNat = 81; omega
        rw [hc']
      · right; rw [h]
  · rintro (rfl | rfl) <;> rw [sameName_iff] <;> decide

theorem get_q (e : Entry) (ho : Ordered e.params) (x : Option Str) :
    QText e x ↔ (e.getParam ['q'] = some x ∨ e.getParam ['q'] = none ∧ x = none) := by
  unfold Entry.getParam
  have hpw := ho
  have key : ∀ (m : List (Str × Option Str)), Ordered m →
      (∀ y, (['Q'], y) ∈ m → (m.find? (fun p => eqIgnoreCase p.1 ['q'])) = some (['Q'], y)) ∧
      ((∀ y, (['Q'], y) ∉ m) → ∀ y, (['q'], y) ∈ m → (m.find? (fun p => eqIgnoreCase p.1 ['q'])) = some (['q'], y)) ∧
      ((∀ y, (['Q'], y) ∉ m) → (∀ y, (['q'], y) ∉ m) → (m.find? (fun p => eqIgnoreCase p.1 ['q'])) = none) := by
    intro m hm
    induction m with
    | nil => simp
    | cons a l ih =>
      obtain ⟨h1, h2⟩ := List.pairwise_cons.1 hm
      obtain ⟨i1, i2, i3⟩ := ih h2
      obtain ⟨k, v⟩ := a
      by_cases hk : eqIgnoreCase k ['q'] = true
      · simp only [List.find?_cons, hk]
        rcases (isQ_iff k).1 hk with rfl | rfl
        · refine ⟨?_, ?_, ?_⟩
          · intro y hy
            rcases List.mem_cons.1 hy with h | h
            · cases h; rfl
            · exact absurd (h1 _ h) (by simp)
          · intro hn; exact absurd List.mem_cons_self (hn v)
          · intro hn; exact absurd List.mem_cons_self (hn v)
        · refine ⟨?_, ?_, ?_⟩
          · intro y hy
            rcases List.mem_cons.1 hy with h | h
            · cases h
            · exact absurd (h1 _ h) (show ¬ (['q'] : Str) < ['Q'] by decide)
          · intro _ y hy
            rcases List.mem_cons.1 hy with h | h
            · cases h; rfl
            · exact absurd (h1 _ h) (by simp)
          · intro _ hn; exact absurd List.mem_cons_self (hn v)
      · have hk' : eqIgnoreCase k ['q'] = false := by simpa using hk
        have hne : k ≠ ['Q'] ∧ k ≠ ['q'] :=
          ⟨fun h => hk ((isQ_iff k).2 (.inl h)), fun h => hk ((isQ_iff k).2 (.inr h))⟩
        simp only [List.find?_cons, hk']
        refine ⟨fun y hy => i1 y ?_, fun hn y hy => i2 (fun y hy => hn y (List.mem_cons_of_mem _ hy)) y ?_,
          fun hn hn' => i3 (fun y hy => hn y (List.mem_cons_of_mem _ hy)) (fun y hy => hn' y (List.mem_cons_of_mem _ hy))⟩
        · rcases List.mem_cons.1 hy with h | h
          · cases h; exact absurd rfl hne.1
          · exact h
        · rcases List.mem_cons.1 hy with h | h
          · cases h; exact absurd rfl hne.2
          · exact h
  obtain ⟨k1, k2, k3⟩ := key e.params ho
  have fwd : ∀ x, QText e x → ((e.params.find? (fun p => eqIgnoreCase p.1 ['q'])).map (·.2) = some x ∨
      (e.params.find? (fun p => eqIgnoreCase p.1 ['q'])).map (·.2) = none ∧ x = none) := by
    intro x h
    cases h with
    | upper h => left; rw [k1 _ h]; rfl
    | lower hn h => left; rw [k2 hn _ h]; rfl
    | absent h1 h2 => right; rw [k3 h1 h2]; exact ⟨rfl, rfl⟩
  have ex : ∃ x, QText e x := by
    by_cases hQ : ∃ y, (['Q'], y) ∈ e.params
    · obtain ⟨y, hy⟩ := hQ; exact ⟨y, .upper hy⟩
    · have hQ' : ∀ y, (['Q'], y) ∉ e.params := fun y hy => hQ ⟨y, hy⟩
      by_cases hq : ∃ y, (['q'], y) ∈ e.params
      · obtain ⟨y, hy⟩ := hq; exact ⟨y, .lower hQ' hy⟩
      · exact ⟨none, .absent hQ' (fun y hy => hq ⟨y, hy⟩)⟩
  refine ⟨fwd x, fun h => ?_⟩
  obtain ⟨y, hy⟩ := ex
  have hy' := fwd y hy
  have : x = y := by
    rcases h with h | ⟨h, rfl⟩ <;> rcases hy' with h' | ⟨h', rfl⟩
    · rw [h] at h'; exact Option.some.inj h'
    · rw [h] at h'; cases h'
    · rw [h] at h'; cases h'
    · rfl
  rw [this]; exact hy

/-- **C135.** The preference of an entry is its `q` when that is a number from 0 to 1, and 0.001 otherwise. -/
theorem C135_weight (F : Floats) (e : Entry) (ho : Ordered e.params) (q : F32) : e.weight F = q ↔ Pref F e q := by
  have hq := get_q e ho
  unfold Entry.weight Entry.preference
  cases hg : e.getParam ['q'] with
  | none =>
    have hx : ∀ x, QText e x ↔ x = none := by intro x; rw [hq x, hg]; simp
    simp only []
    constructor
    · rintro rfl
      exact ⟨none, (hx _).2 rfl, .inr ⟨by simp, rfl⟩⟩
    · rintro ⟨x, h1, h2⟩
      rw [(hx x).1 h1] at h2
      rcases h2 with ⟨t, h, _⟩ | ⟨_, h⟩
      · cases h
      · exact h.symm
  | some y =>
    have hx : ∀ x, QText e x ↔ x = y := by
      intro x; rw [hq x, hg]
      simp only [Option.some.injEq, reduceCtorEq, false_and, or_false]; exact eq_comm
    cases y with
    | none =>
      simp only []
      constructor
      · rintro rfl
        exact ⟨none, (hx _).2 rfl, .inr ⟨by simp, rfl⟩⟩
      · rintro ⟨x, h1, h2⟩
        rw [(hx x).1 h1] at h2
        rcases h2 with ⟨t, h, _⟩ | ⟨_, h⟩
        · cases h
        · exact h.symm
    | some t =>
      simp only []
      cases hp : parseQ F t with
      | none =>
        have hn := (parseQ_none F t).1 hp
        simp only []
        constructor
        · rintro rfl
          exact ⟨some t, (hx _).2 rfl, .inr ⟨fun t' h q' => by cases h; exact hn q', rfl⟩⟩
        · rintro ⟨x, h1, h2⟩
          rw [(hx x).1 h1] at h2
          rcases h2 with ⟨t', h, h'⟩ | ⟨_, h⟩
          · cases h; exact absurd h' (hn q)
          · exact h.symm
      | some q0 =>
        have hn := (parseQ_iff F t q0).1 hp
        simp only []
        constructor
        · rintro rfl
          exact ⟨some t, (hx _).2 rfl, .inl ⟨t, rfl, hn⟩⟩
        · rintro ⟨x, h1, h2⟩
          rw [(hx x).1 h1] at h2
          rcases h2 with ⟨t', h, h'⟩ | ⟨h, _⟩
          · cases h; have := (parseQ_iff F t q).2 h'; rw [hp] at this; exact Option.some.inj this
          · exact absurd hn (h t rfl q0)

/-- Every entry that is made and changed by the functions keeps its parameters in order. -/
theorem C135_ordered (e e' : Entry) (ho : Ordered e.params) (n : Str) (v : Option Str) (h : e.setParam n v = some e') :
    Ordered e'.params := by
  unfold Entry.setParam at h
  repeat' split at h
  all_goals first | cases h | skip
  rw [ordered_iff] at *
  exact UriP.sorted_insert n v ho

/-- **C135.** A parameter is set exactly when there are fewer than twenty (even if it replaces one) and its name and value
are acceptable; then it has the new value, and everything else is as before. -/
theorem C135_set (e e' : Entry) (ho : Ordered e.params) (n : Str) (v : Option Str) :
    e.setParam n v = some e' ↔
      e.params.length < 20 ∧ GoodName n ∧ (∀ t, v = some t → GoodValue t) ∧ e'.mech = e.mech ∧ Ordered e'.params ∧
      ∀ k w, (k, w) ∈ e'.params ↔ (k = n ∧ w = v) ∨ (k ≠ n ∧ (k, w) ∈ e.params) := by
  have hs := (ordered_iff _).1 ho
  have hv : v.all validValue = true ↔ ∀ t, v = some t → GoodValue t := by
    cases v with
    | none => simp
    | some t => simp [validValue_iff]
  unfold Entry.setParam MAX_PARAMS_PER_ENTRY
  by_cases h1 : e.params.length ≥ 20
  · rw [if_pos h1]; exact ⟨nofun, fun h => by omega⟩
  · rw [if_neg h1]
    by_cases h2 : validName n = true
    · rw [if_neg (by simp [h2])]
      by_cases h3 : v.all validValue = true
      · rw [if_neg (by simp [h3])]
        constructor
        · intro h; cases h
          refine ⟨by omega, (validName_iff n).1 h2, hv.1 h3, rfl, (ordered_iff _).2 (UriP.sorted_insert n v hs), fun k w => ?_⟩
          exact UriP.mem_insert_iff hs k w
        · rintro ⟨_, _, _, hm, ho', hmem⟩
          congr 1
          obtain ⟨m', p'⟩ := e'
          simp only at hm ho' hmem
          subst hm
          congr 1
          refine UriText.sorted_ext (UriP.sorted_insert n v hs) ((ordered_iff _).1 ho') (fun x => ?_)
          obtain ⟨k, w⟩ := x
          rw [hmem, UriP.mem_insert_iff hs]
      · rw [if_pos (by simp [h3])]
        exact ⟨nofun, fun h => absurd (hv.2 h.2.2.1) h3⟩
    · rw [if_pos (by simp [h2])]
      exact ⟨nofun, fun h => absurd ((validName_iff n).2 h.2.1) h2⟩

/-- **C135.** A preference is set exactly when it is from 0 to 1 and the parameter `q` can be set, and it is written with at
most three digits: the trailing zeros and then the trailing point are left out. -/
theorem C135_set_preference (F : Floats) (e e' : Entry) (q : F32) :
    e.setPreference F q = some e' ↔ 0 ≤ q.val ∧ q.val ≤ 1 ∧ ∃ t, e.setParam ['q'] (some t) = some e' ∧
      ((q.val = 1 ∧ t = ['1']) ∨
       (q.val ≠ 1 ∧ ∃ dots zeros, F.fixed3 q = t ++ dots ++ zeros ∧ (∀ c ∈ zeros, c = '0') ∧ (t ++ dots).getLast? ≠ some '0' ∧
         (∀ c ∈ dots, c = '.') ∧ t.getLast? ≠ some '.')) := by
  have tm : ∀ (c : Char) (s t : Str), trimEndMatches c s = t ↔ ∃ z, s = t ++ z ∧ (∀ x ∈ z, x = c) ∧ t.getLast? ≠ some c := by
    intro c s t
    unfold trimEndMatches
    have base : ∀ (r t : Str), r.dropWhile (· == c) = t ↔ ∃ z, r = z ++ t ∧ (∀ x ∈ z, x = c) ∧ t.head? ≠ some c := by
      intro r
      induction r with
      | nil =>
        intro t
        constructor
        · intro h; cases h; exact ⟨[], rfl, by simp, by simp⟩
        · rintro ⟨z, h, _⟩; simp at h; rw [h.2]; rfl
      | cons x r ih =>
        intro t
        by_cases hx : x = c
        · subst hx
          rw [List.dropWhile_cons_of_pos (by simp), ih]
          constructor
          · rintro ⟨z, h1, h2, h3⟩
            exact ⟨x :: z, by rw [h1]; rfl, by simpa using h2, h3⟩
          · rintro ⟨z, h1, h2, h3⟩
            cases z with
            | nil => simp at h1; rw [← h1] at h3; simp at h3
            | cons y z => simp at h1; exact ⟨z, h1.2, fun w hw => h2 w (List.mem_cons_of_mem _ hw), h3⟩
        · rw [List.dropWhile_cons_of_neg (by simpa using hx)]
          constructor
          · rintro rfl; exact ⟨[], rfl, by simp, by simpa using hx⟩
          · rintro ⟨z, h1, h2, h3⟩
            cases z with
            | nil => exact h1
            | cons y z => simp at h1; exact absurd (h1.1.trans (h2 y List.mem_cons_self)) hx
    rw [show ((s.reverse.dropWhile (· == c)).reverse = t) ↔ (s.reverse.dropWhile (· == c) = t.reverse) by
      constructor
      · intro h; rw [← h, List.reverse_reverse]
      · intro h; rw [h, List.reverse_reverse]]
    rw [base]
    constructor
    · rintro ⟨z, h1, h2, h3⟩
      refine ⟨z.reverse, ?_, fun x hx => h2 x (by simpa using hx), by simpa using h3⟩
      have := congrArg List.reverse h1; simpa using this
    · rintro ⟨z, h1, h2, h3⟩
      exact ⟨z.reverse, by rw [h1]; simp, fun x hx => h2 x (by simpa using hx), by simpa using h3⟩
  unfold Entry.setPreference validQ
  by_cases hq : 0 ≤ q.val ∧ q.val ≤ 1
  · rw [if_neg (by simp [hq.1, hq.2])]
    simp only [hq.1, hq.2, true_and]
    by_cases h1 : q.val = 1
    · simp [h1]
    · rw [if_neg h1]
      constructor
      · intro h
        refine ⟨_, h, .inr ⟨h1, ?_⟩⟩
        obtain ⟨z, hz, hz1, hz2⟩ := (tm '0' (F.fixed3 q) _).1 rfl
        obtain ⟨d, hd, hd1, hd2⟩ := (tm '.' (trimEndMatches '0' (F.fixed3 q)) _).1 rfl
        exact ⟨d, z, by rw [← hd]; exact hz, hz1, by rw [← hd]; exact hz2, hd1, hd2⟩
      · rintro ⟨t, h, ⟨h', _⟩ | ⟨_, d, z, h2, h3, h4, h5, h6⟩⟩
        · exact absurd h' h1
        · have : trimEndMatches '0' (F.fixed3 q) = t ++ d := (tm '0' _ _).2 ⟨z, h2, h3, h4⟩
          rw [this, (tm '.' (t ++ d) t).2 ⟨d, rfl, h5, h6⟩]
          exact h
  · have hq' : (!(decide (0 ≤ q.val) && decide (q.val ≤ 1))) = true := by
      simp only [Bool.not_eq_true', Bool.and_eq_false_iff, decide_eq_false_iff_not]
      exact Decidable.not_and_iff_or_not.1 hq
    rw [if_pos hq']
    exact ⟨nofun, fun h => absurd ⟨h.1, h.2.1⟩ hq⟩

/-- **C135.** The three ready-made entries have the parameters they are given, and no others. -/
theorem C135_made :
    Entry.tls = ⟨.tls, []⟩ ∧
    (∀ a qop e, Entry.digest a qop = some e ↔ GoodValue a ∧ (∀ q, qop = some q → GoodValue q) ∧
      e = ⟨.digest, ("d-alg".toList, some a) :: (match qop with | some q => [("d-qop".toList, some q)] | none => [])⟩) ∧
    (∀ a p m e, Entry.ipsecIke a p m = some e ↔ GoodValue a ∧ GoodValue p ∧ GoodValue m ∧
      e = ⟨.ipsecIke, [("algorithm".toList, some a), ("mode".toList, some m), ("protocol".toList, some p)]⟩) := by
  have n1 : validName "d-alg".toList = true := by decide +kernel
  have n2 : validName "d-qop".toList = true := by decide +kernel
  have n3 : validName "algorithm".toList = true := by decide +kernel
  have n4 : validName "protocol".toList = true := by decide +kernel
  have n5 : validName "mode".toList = true := by decide +kernel
  have hset : ∀ (e : Entry) k v, e.params.length < 20 → validName k = true → e.setParam k (some v) =
      if validValue v then some ⟨e.mech, e.params.insert k (some v)⟩ else none := by
    intro e k v h1 h2
    unfold Entry.setParam MAX_PARAMS_PER_ENTRY
    rw [if_neg (by omega), h2]
    simp only [Bool.not_true, Bool.false_eq_true, if_false, Option.all_some]
    rcases Bool.eq_false_or_eq_true (validValue v) with h | h <;> simp [h]
  refine ⟨rfl, ?_, ?_⟩
  · intro a qop e
    unfold Entry.digest
    rw [hset _ _ _ (by simp [Entry.new]) n1, ← validValue_iff]
    by_cases ha : validValue a = true
    · rw [if_pos ha]
      simp only [ha, true_and]
      cases qop with
      | none => simp [Entry.new, BMap.insert, eq_comm]
      | some q =>
        simp only [Entry.new]
        rw [hset _ _ _ (by simp [BMap.insert]) n2]
        have hi : BMap.insert (BMap.insert [] "d-alg".toList (some a)) "d-qop".toList (some q) =
            [("d-alg".toList, some a), ("d-qop".toList, some q)] := by
          have x1 : ("d-qop".toList = "d-alg".toList) = False := by decide +kernel
          have x2 : strLt "d-qop".toList "d-alg".toList = false := by decide +kernel
          simp only [BMap.insert, x1, x2, if_false, Bool.false_eq_true]
        rw [hi]
        simp only [Option.ite_none_right_eq_some, Option.some.injEq, forall_eq', ← validValue_iff]
        constructor
        · rintro ⟨h, rfl⟩; exact ⟨h, rfl⟩
        · rintro ⟨h, rfl⟩; exact ⟨h, rfl⟩
    · rw [if_neg ha]
      exact ⟨nofun, fun h => absurd h.1 ha⟩
  · intro a p m e
    unfold Entry.ipsecIke
    rw [hset _ _ _ (by simp [Entry.new]) n3, ← validValue_iff, ← validValue_iff, ← validValue_iff]
    by_cases ha : validValue a = true
    · rw [if_pos ha]
      simp only [Entry.new]
      rw [hset _ _ _ (by simp [BMap.insert]) n4]
      by_cases hp : validValue p = true
      · rw [if_pos hp]
        simp only []
        have hi : BMap.insert (BMap.insert [] "algorithm".toList (some a)) "protocol".toList (some p) =
            [("algorithm".toList, some a), ("protocol".toList, some p)] := by
          have x1 : ("protocol".toList = "algorithm".toList) = False := by decide +kernel
          have x2 : strLt "protocol".toList "algorithm".toList = false := by decide +kernel
          simp only [BMap.insert, x1, x2, if_false, Bool.false_eq_true]
        rw [hi, hset _ _ _ (by simp) n5]
        have hj : BMap.insert [("algorithm".toList, some a), ("protocol".toList, some p)] "mode".toList (some m) =
            [("algorithm".toList, some a), ("mode".toList, some m), ("protocol".toList, some p)] := by
          have x1 : ("mode".toList = "algorithm".toList) = False := by decide +kernel
          have x2 : strLt "mode".toList "algorithm".toList = false := by decide +kernel
          have x3 : ("mode".toList = "protocol".toList) = False := by decide +kernel
          have x4 : strLt "mode".toList "protocol".toList = true := by decide +kernel
          simp only [BMap.insert, x1, x2, x3, x4, if_false, if_true, Bool.false_eq_true]
        rw [hj]
        simp only [Option.ite_none_right_eq_some, Option.some.injEq, ha, hp, true_and]
        constructor
        · rintro ⟨h, rfl⟩; exact ⟨h, rfl⟩
        · rintro ⟨h, rfl⟩; exact ⟨h, rfl⟩
      · rw [if_neg hp]
        exact ⟨nofun, fun h => absurd h.2.1 hp⟩
    · rw [if_neg ha]
      exact ⟨nofun, fun h => absurd h.1 ha⟩

/-- **C135.** A header takes at most ten entries. -/
theorem C135_new_header (es es' : List Entry) : newHeader es = some es' ↔ es.length ≤ 10 ∧ es' = es := by
  unfold newHeader MAX_ENTRIES
  by_cases h : es.length > 10
  · rw [if_pos h]; exact ⟨nofun, fun h' => by omega⟩
  · rw [if_neg h]
    constructor
    · intro h'; cases h'; exact ⟨by omega, rfl⟩
    · rintro ⟨_, rfl⟩; rfl

/-! ## The choice -/

theorem find_first (m : Mechanism) (client : List Entry) (c : Entry) :
    client.find? (fun c => decide (c.mech = m)) = some c ↔ FirstFor m client c := by
  rw [List.find?_eq_some_iff_append]
  unfold FirstFor
  constructor
  · rintro ⟨h1, pre, post, h2, h3⟩
    exact ⟨pre, post, h2, by simpa using h1, fun x hx => by simpa using h3 x hx⟩
  · rintro ⟨pre, post, h2, h1, h3⟩
    exact ⟨by simpa using h1, pre, post, h2, fun x hx => by simpa using h3 x hx⟩

/-- The score the loop computes. -/
def score (F : Floats) (client : List Entry) (s : Entry) : Option Rat :=
  (client.find? (fun c => decide (c.mech = s.mech))).map (fun c => F.rnd ((s.weight F).val * (c.weight F).val))

theorem score_iff (F : Floats) (client : List Entry) (hc : ∀ c ∈ client, Ordered c.params) (s : Entry) (hs : Ordered s.params)
    (q : Rat) : score F client s = some q ↔ Combined F client s q := by
  unfold score
  rw [Option.map_eq_some_iff]
  constructor
  · rintro ⟨c, h1, h2⟩
    have hm : c ∈ client := List.mem_of_find?_eq_some h1
    exact ⟨c, _, _, (find_first _ _ _).1 h1, (C135_weight F s hs _).1 rfl, (C135_weight F c (hc c hm) _).1 rfl, h2.symm⟩
  · rintro ⟨c, qs, qc, h1, h2, h3, h4⟩
    have h1 := (find_first _ _ _).2 h1
    have hm : c ∈ client := List.mem_of_find?_eq_some h1
    refine ⟨c, h1, ?_⟩
    rw [(C135_weight F s hs _).2 h2, (C135_weight F c (hc c hm) _).2 h3, h4]

theorem bestLoop_some (F : Floats) (client : List Entry) (ss : List Entry) (b : Entry) (x : Rat) :
    (bestLoop F client ss (some (b, x)) = some (b, x) ∧ ∀ s ∈ ss, ∀ q, score F client s = some q → q ≤ x) ∨
    ∃ pre s post q, ss = pre ++ s :: post ∧ bestLoop F client ss (some (b, x)) = some (s, q) ∧ score F client s = some q ∧
      x < q ∧ (∀ y ∈ pre, ∀ q', score F client y = some q' → q' < q) ∧ (∀ y ∈ post, ∀ q', score F client y = some q' → q' ≤ q) := by
  induction ss generalizing b x with
  | nil => left; exact ⟨rfl, by simp⟩
  | cons s ss ih =>
    rw [bestLoop]
    cases hf : client.find? (fun c => decide (c.mech = s.mech)) with
    | none =>
      have hsc : score F client s = none := by unfold score; rw [hf]; rfl
      simp only []
      rcases ih b x with ⟨h1, h2⟩ | ⟨pre, t, post, q, h1, h2, h3, h4, h5, h6⟩
      · left
        refine ⟨h1, fun y hy q hq => ?_⟩
        rcases List.mem_cons.1 hy with rfl | hy
        · rw [hsc] at hq; cases hq
        · exact h2 y hy q hq
      · right
        refine ⟨s :: pre, t, post, q, by rw [h1]; rfl, h2, h3, h4, fun y hy q' hq' => ?_, h6⟩
        rcases List.mem_cons.1 hy with rfl | hy
        · rw [hsc] at hq'; cases hq'
        · exact h5 y hy q' hq'
    | some c =>
      have hsc : score F client s = some (F.rnd ((s.weight F).val * (c.weight F).val)) := by unfold score; rw [hf]; rfl
      simp only []
      generalize F.rnd ((s.weight F).val * (c.weight F).val) = r at *
      by_cases hlt : x < r
      · rw [if_pos hlt]
        right
        rcases ih s r with ⟨h1, h2⟩ | ⟨pre, t, post, q, h1, h2, h3, h4, h5, h6⟩
        · exact ⟨[], s, ss, r, rfl, h1, hsc, hlt, by simp, h2⟩
        · refine ⟨s :: pre, t, post, q, by rw [h1]; rfl, h2, h3, by grind, fun y hy q' hq' => ?_, h6⟩
          rcases List.mem_cons.1 hy with rfl | hy
          · rw [hsc] at hq'; cases hq'; exact h4
          · exact h5 y hy q' hq'
      · rw [if_neg hlt]
        rcases ih b x with ⟨h1, h2⟩ | ⟨pre, t, post, q, h1, h2, h3, h4, h5, h6⟩
        · left
          refine ⟨h1, fun y hy q hq => ?_⟩
          rcases List.mem_cons.1 hy with rfl | hy
          · rw [hsc] at hq; cases hq; grind
          · exact h2 y hy q hq
        · right
          refine ⟨s :: pre, t, post, q, by rw [h1]; rfl, h2, h3, h4, fun y hy q' hq' => ?_, h6⟩
          rcases List.mem_cons.1 hy with rfl | hy
          · rw [hsc] at hq'; cases hq'; grind
          · exact h5 y hy q' hq'

theorem bestLoop_none (F : Floats) (client : List Entry) (ss : List Entry) :
    (bestLoop F client ss none = none ∧ ∀ s ∈ ss, score F client s = none) ∨
    ∃ pre s post q, ss = pre ++ s :: post ∧ bestLoop F client ss none = some (s, q) ∧ score F client s = some q ∧
      (∀ y ∈ pre, ∀ q', score F client y = some q' → q' < q) ∧ (∀ y ∈ post, ∀ q', score F client y = some q' → q' ≤ q) := by
  induction ss with
  | nil => left; exact ⟨rfl, by simp⟩
  | cons s ss ih =>
    rw [bestLoop]
    cases hf : client.find? (fun c => decide (c.mech = s.mech)) with
    | none =>
      have hsc : score F client s = none := by unfold score; rw [hf]; rfl
      simp only []
      rcases ih with ⟨h1, h2⟩ | ⟨pre, t, post, q, h1, h2, h3, h5, h6⟩
      · left
        refine ⟨h1, fun y hy => ?_⟩
        rcases List.mem_cons.1 hy with rfl | hy
        · exact hsc
        · exact h2 y hy
      · right
        refine ⟨s :: pre, t, post, q, by rw [h1]; rfl, h2, h3, fun y hy q' hq' => ?_, h6⟩
        rcases List.mem_cons.1 hy with rfl | hy
        · rw [hsc] at hq'; cases hq'
        · exact h5 y hy q' hq'
    | some c =>
      have hsc : score F client s = some (F.rnd ((s.weight F).val * (c.weight F).val)) := by unfold score; rw [hf]; rfl
      simp only []
      generalize F.rnd ((s.weight F).val * (c.weight F).val) = r at *
      right
      rcases bestLoop_some F client ss s r with ⟨h1, h2⟩ | ⟨pre, t, post, q, h1, h2, h3, h4, h5, h6⟩
      · exact ⟨[], s, ss, r, rfl, h1, hsc, by simp, h2⟩
      · refine ⟨s :: pre, t, post, q, by rw [h1]; rfl, h2, h3, fun y hy q' hq' => ?_, h6⟩
        rcases List.mem_cons.1 hy with rfl | hy
        · rw [hsc] at hq'; cases hq'; exact h4
        · exact h5 y hy q' hq'

/-- **C135.** The choice is the first entry of the server with the highest combined preference. -/
theorem C135_best (F : Floats) (server client : List Entry) (hs : ∀ s ∈ server, Ordered s.params)
    (hc : ∀ c ∈ client, Ordered c.params) (s : Entry) :
    findBestMatch F server client = some s → Best F server client s := by
  intro h
  unfold findBestMatch at h
  rcases bestLoop_none F client server with ⟨h1, _⟩ | ⟨pre, t, post, q, h1, h2, h3, h5, h6⟩
  · rw [h1] at h; cases h
  · rw [h2] at h
    cases h
    refine ⟨pre, post, q, h1, (score_iff F client hc _ (hs _ (by rw [h1]; simp)) q).1 h3, fun x hx q' hq' => ?_, fun x hx q' hq' => ?_⟩
    · exact h5 x hx q' ((score_iff F client hc x (hs _ (by rw [h1]; simp [hx])) q').2 hq')
    · exact h6 x hx q' ((score_iff F client hc x (hs _ (by rw [h1]; simp [hx])) q').2 hq')

/-- Two entries cannot both be the best. -/
theorem best_unique (F : Floats) (server client : List Entry) (s t : Entry) (hs : Best F server client s)
    (ht : Best F server client t) : s = t := by
  obtain ⟨pre, post, q, h1, h2, h3, h4⟩ := hs
  obtain ⟨pre', post', q', h1', h2', h3', h4'⟩ := ht
  rw [h1] at h1'
  rcases List.append_eq_append_iff.1 h1' with ⟨a, ha, hb⟩ | ⟨a, ha, hb⟩
  · cases a with
    | nil => simp at hb; exact hb.1
    | cons x a =>
      simp at hb
      have hx : s ∈ pre' := by rw [ha, ← hb.1]; simp
      have ht : t ∈ post := by rw [hb.2]; simp
      have a1 := h3' s hx q h2
      have a2 := h4 t ht q' h2'
      grind
  · cases a with
    | nil => simp at hb; exact hb.1.symm
    | cons x a =>
      simp at hb
      have hx : t ∈ pre := by rw [ha, ← hb.1]; simp
      have ht : s ∈ post' := by rw [hb.2]; simp
      have a1 := h3 t hx q' h2'
      have a2 := h4' s ht q h2
      grind

/-- **C135.** A mechanism is chosen exactly when both sides name one in common. -/
theorem C135_some (F : Floats) (server client : List Entry) :
    (∃ s, findBestMatch F server client = some s) ↔ ∃ s ∈ server, ∃ c ∈ client, c.mech = s.mech := by
  unfold findBestMatch
  have hsc : ∀ s, score F client s = none ↔ ∀ c ∈ client, c.mech ≠ s.mech := by
    intro s; unfold score; rw [Option.map_eq_none_iff, List.find?_eq_none]; simp
  rcases bestLoop_none F client server with ⟨h1, h2⟩ | ⟨pre, t, post, q, h1, h2, h3, h5, h6⟩
  · rw [h1]
    constructor
    · rintro ⟨s, h⟩; cases h
    · rintro ⟨s, hs, c, hc, he⟩
      exact absurd he ((hsc s).1 (h2 s hs) c hc)
  · rw [h2]
    refine ⟨fun _ => ⟨t, by rw [h1]; simp, ?_⟩, fun _ => ⟨t, rfl⟩⟩
    cases hf : client.find? (fun c => decide (c.mech = t.mech)) with
    | none => unfold score at h3; rw [hf] at h3; cases h3
    | some c => exact ⟨c, List.mem_of_find?_eq_some hf, by simpa using List.find?_some hf⟩

/-- **C135.** The choice is exactly the best entry. -/
theorem C135_choice (F : Floats) (server client : List Entry) (hs : ∀ s ∈ server, Ordered s.params)
    (hc : ∀ c ∈ client, Ordered c.params) (s : Entry) :
    findBestMatch F server client = some s ↔ Best F server client s := by
  refine ⟨C135_best F server client hs hc s, fun h => ?_⟩
  have hx : ∃ t, findBestMatch F server client = some t := by
    obtain ⟨pre, post, q, h1, ⟨c, _, _, ⟨p, p', h2, h3, _⟩, _⟩, _⟩ := h
    exact (C135_some F server client).2 ⟨s, by rw [h1]; simp, c, by rw [h2]; simp, h3⟩
  obtain ⟨t, ht⟩ := hx
  rw [ht, best_unique F server client t s (C135_best F server client hs hc t ht) h]

/-- **C135.** Verification looks at the name of the mechanism only. -/
theorem C135_verify (v : List Entry) (s : Entry) : verifies v s = true ↔ ∃ e ∈ v, e.mech = s.mech := by
  unfold verifies; simp

/-! ## The order of preference -/

theorem heavier_iff (F : Floats) (b a : Entry) (hb : Ordered b.params) (ha : Ordered a.params) :
    heavier F b a = true ↔ Preferred F b a := by
  unfold heavier Preferred
  simp only [Bool.or_eq_true, decide_eq_true_eq, Bool.and_eq_true, Bool.not_eq_true', and_assoc]
  constructor
  · intro h
    exact ⟨_, _, (C135_weight F b hb _).1 rfl, (C135_weight F a ha _).1 rfl, h⟩
  · rintro ⟨qb, qa, h1, h2, h⟩
    rw [(C135_weight F b hb _).2 h1, (C135_weight F a ha _).2 h2]; exact h

theorem place_perm (F : Floats) (x : Entry) : ∀ l, (place F x l).Perm (x :: l)
  | [] => .refl _
  | y :: ys => by
    rw [place]; split
    · exact ((place_perm F x ys).cons y).trans (.swap x y ys)
    · exact .refl _

theorem heavier_trans (F : Floats) {a b c : Entry} (h1 : heavier F a b = false) (h2 : heavier F b c = false) :
    heavier F a c = false := by
  unfold heavier at *
  simp only [Bool.or_eq_false_iff, decide_eq_false_iff_not, Bool.and_eq_false_iff, Bool.not_eq_false'] at *
  obtain ⟨a1, a2⟩ := h1
  obtain ⟨b1, b2⟩ := h2
  refine ⟨by grind, ?_⟩
  by_cases e : (c.weight F).val = (a.weight F).val
  · have e1 : (b.weight F).val = (a.weight F).val := by grind
    have e2 : (c.weight F).val = (b.weight F).val := by grind
    rcases a2 with (a2 | a2) | a2
    · exact absurd e1 a2
    · rcases b2 with (b2 | b2) | b2
      · exact absurd e2 b2
      · exact .inl (.inr b2)
      · rw [a2] at b2; cases b2
    · exact .inr a2
  · exact .inl (.inl e)

theorem heavier_asymm (F : Floats) {a b : Entry} (h : heavier F a b = true) : heavier F b a = false := by
  unfold heavier at *
  simp only [Bool.or_eq_true, decide_eq_true_eq, Bool.and_eq_true, Bool.not_eq_true', Bool.or_eq_false_iff,
    decide_eq_false_iff_not, Bool.and_eq_false_iff, Bool.not_eq_false'] at *
  rcases h with h | ⟨⟨h1, h2⟩, h3⟩
  · exact ⟨by grind, .inl (.inl (by grind))⟩
  · exact ⟨by grind, .inr h2⟩

theorem place_sorted (F : Floats) (x : Entry) : ∀ l : List Entry, l.Pairwise (fun a b => heavier F b a = false) →
    (place F x l).Pairwise (fun a b => heavier F b a = false)
  | [], _ => by simp [place]
  | y :: ys, h => by
    obtain ⟨h1, h2⟩ := List.pairwise_cons.1 h
    rw [place]
    split
    · rename_i hy
      rw [List.pairwise_cons]
      refine ⟨fun z hz => ?_, place_sorted F x ys h2⟩
      rcases List.mem_cons.1 ((place_perm F x ys).mem_iff.1 hz) with rfl | hz
      · exact heavier_asymm F hy
      · exact h1 z hz
    · rename_i hy
      have hy : heavier F y x = false := by simpa using hy
      rw [List.pairwise_cons]
      refine ⟨fun z hz => ?_, h⟩
      rcases List.mem_cons.1 hz with rfl | hz
      · exact hy
      · exact heavier_trans F (h1 z hz) hy

theorem place_filter (F : Floats) (w : F32) (x : Entry) : ∀ l : List Entry,
    (place F x l).filter (fun e => decide (e.weight F = w)) = (x :: l).filter (fun e => decide (e.weight F = w))
  | [] => rfl
  | y :: ys => by
    rw [place]
    split
    · rename_i hy
      rw [List.filter_cons, place_filter F w x ys]
      by_cases h1 : x.weight F = w
      · by_cases h2 : y.weight F = w
        · exfalso
          have hxy : y.weight F = x.weight F := by rw [h1, h2]
          unfold heavier at hy
          rw [hxy] at hy
          simp at hy
        · simp [List.filter_cons, h1, h2]
      · simp [List.filter_cons, h1]
    · rfl

/-- **C135.** `sorted_by_preference` gives the same entries, none after a less preferred one, and entries of the same
preference in the order in which they were listed. -/
theorem C135_sorted (F : Floats) (l : List Entry) (ho : ∀ e ∈ l, Ordered e.params) :
    (sortedByPreference F l).Perm l ∧ (sortedByPreference F l).Pairwise (fun a b => ¬ Preferred F b a) ∧
    ∀ w, (sortedByPreference F l).filter (fun e => decide (e.weight F = w)) = l.filter (fun e => decide (e.weight F = w)) := by
  have hp : ∀ l : List Entry, (sortedByPreference F l).Perm l := by
    intro l
    induction l with
    | nil => exact .refl _
    | cons x xs ih => exact (place_perm F x _).trans (ih.cons x)
  have hs : ∀ l : List Entry, (sortedByPreference F l).Pairwise (fun a b => heavier F b a = false) := by
    intro l
    induction l with
    | nil => exact .nil
    | cons x xs ih => exact place_sorted F x _ ih
  have hf : ∀ (l : List Entry) w, (sortedByPreference F l).filter (fun e => decide (e.weight F = w)) =
      l.filter (fun e => decide (e.weight F = w)) := by
    intro l w
    induction l with
    | nil => rfl
    | cons x xs ih =>
      rw [sortedByPreference, place_filter, List.filter_cons, List.filter_cons, ih]
  refine ⟨hp l, (hs l).imp_of_mem (fun {a b} ha hb h => ?_), hf l⟩
  have ha := ho a ((hp l).mem_iff.1 ha)
  have hb := ho b ((hp l).mem_iff.1 hb)
  rw [← heavier_iff F b a hb ha, h]; simp

/-! ## Examples and findings -/

/-- Numbers for the examples: no rounding, and four texts that are numbers. -/
def exact4 : Floats where
  rnd := id
  read := fun s =>
    if s = "0.1".toList then some (some ⟨1 / 10, false⟩)
    else if s = "0.5".toList then some (some ⟨1 / 2, false⟩)
    else if s = "0.2".toList then some (some ⟨1 / 5, false⟩)
    else if s = "1".toList then some (some ⟨1, false⟩)
    else none
  fixed3 := fun _ => []

/-- An entry with a preference. -/
def withQ (m : Mechanism) (q : String) : Entry := ⟨m, [(['q'], some q.toList)]⟩

example : findBestMatch exact4 [withQ .digest "0.1", withQ .tls "0.5"] [withQ .tls "1", withQ .digest "1"] =
    some (withQ .tls "0.5") := by decide +kernel
example : ∀ e ∈ [withQ .digest "0.1", withQ .tls "0.5"], Ordered e.params := by
  intro e he; simp at he; rcases he with rfl | rfl <;> simp [withQ, Ordered]

/-- **C135, finding.** RFC 3329 has the client use the mechanism the server prefers among those it supports.  Here a client
that weighs its mechanisms is given one the server likes less. -/
theorem C135_not_server_choice :
    ∃ server client s t, findBestMatch exact4 server client = some s ∧ t ∈ server ∧ (∃ c ∈ client, c.mech = t.mech) ∧
      Preferred exact4 t s := by
  refine ⟨[withQ .tls "0.5", withQ .digest "0.2"], [withQ .tls "0.1", withQ .digest "1"], withQ .digest "0.2", withQ .tls "0.5",
    by decide +kernel, by decide +kernel, ⟨withQ .tls "0.1", by decide +kernel, rfl⟩, ?_⟩
  rw [← heavier_iff _ _ _ (by simp [withQ, Ordered]) (by simp [withQ, Ordered])]
  decide +kernel

/-- **C135, finding.** The list the client repeats is not compared with the list the server sent.  The server offered TLS and
Digest, and the client would have used TLS; on the way the list was changed to Digest alone, so the client uses Digest and
repeats the changed list.  Nothing in it is what the server sent, and the verification succeeds. -/
theorem C135_bidding_down :
    ∃ server changed client agreed, findBestMatch exact4 server client = some (withQ .tls "0.5") ∧
      findBestMatch exact4 changed client = some agreed ∧ agreed.mech = .digest ∧ (∀ e ∈ changed, e ∉ server) ∧
      ∃ s ∈ server, s.mech = agreed.mech ∧ verifies changed s = true :=
  ⟨[withQ .tls "0.5", withQ .digest "0.1"], [withQ .digest "1"], [.tls, .new .digest], withQ .digest "1",
    by decide +kernel, by decide +kernel, rfl, by decide +kernel, withQ .digest "0.1", by decide +kernel, rfl, by decide +kernel⟩

/-- **C135, finding.** Names of mechanisms that are not among the four known ones are compared with regard to case. -/
theorem C135_case :
    ∃ a b, Mechanism.parse "ipsec-3gpp".toList = some a ∧ Mechanism.parse "IPSEC-3GPP".toList = some b ∧
      findBestMatch exact4 [.new a] [.new b] = none :=
  ⟨.other "ipsec-3gpp".toList, .other "IPSEC-3GPP".toList, by decide +kernel, by decide +kernel, by decide +kernel⟩

end Siphon.SecAgree
