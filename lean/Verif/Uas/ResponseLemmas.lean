import Verif.Uas.Response
import Verif.Uas.RportProps
import Verif.Dialog.PropsAck
set_option linter.unusedSimpArgs false
namespace Siphon.Uas
open Siphon.Dlg (addAll copyHeader angle addAll_inner addAll_ok selects_iff)
open HdrSpec

/-! ## Text -/

theorem cutAt_some {n : Str} (hn : n ≠ []) : ∀ {s a b : Str}, cutAt n s = some (a, b) →
    s = a ++ n ++ b ∧ ∀ x y, s = x ++ n ++ y → a.length ≤ x.length
  | [], a, b, h => by simp [cutAt] at h
  | c :: s, a, b, h => by
    unfold cutAt at h
    split at h
    · rename_i hp
      obtain ⟨t, ht⟩ := List.isPrefixOf_iff_prefix.mp hp
      simp only [Option.some.injEq, Prod.mk.injEq] at h
      obtain ⟨rfl, rfl⟩ := h
      exact ⟨by rw [← ht]; simp, by simp⟩
    · rename_i hp
      cases hr : cutAt n s with
      | none => simp [hr] at h
      | some p =>
        obtain ⟨a', b'⟩ := p
        simp only [hr, Option.map_some, Option.some.injEq, Prod.mk.injEq] at h
        obtain ⟨rfl, rfl⟩ := h
        obtain ⟨h1, h2⟩ := cutAt_some hn hr
        refine ⟨by rw [h1]; simp, ?_⟩
        intro x y hxy
        cases x with
        | nil =>
          exfalso
          apply hp
          rw [List.isPrefixOf_iff_prefix]
          exact ⟨y, by rw [hxy]; simp⟩
        | cons d x =>
          simp only [List.cons_append, List.cons.injEq] at hxy
          have := h2 x y hxy.2
          simp only [List.length_cons]
          omega

theorem cutAt_none {n : Str} (hn : n ≠ []) : ∀ {s : Str}, cutAt n s = none ↔ ∀ a b, s ≠ a ++ n ++ b
  | [] => by
    simp only [cutAt, true_iff]
    intro a b h
    cases n with
    | nil => exact hn rfl
    | cons c n => simp at h
  | c :: s => by
    constructor
    · intro h a b hab
      unfold cutAt at h
      split at h
      · cases h
      · rename_i hp
        rw [Option.map_eq_none_iff, cutAt_none hn] at h
        cases a with
        | nil =>
          apply hp
          rw [List.isPrefixOf_iff_prefix]
          exact ⟨b, by rw [hab]; simp⟩
        | cons d a =>
          simp only [List.cons_append, List.cons.injEq] at hab
          exact h a b hab.2
    · intro h
      unfold cutAt
      split
      · rename_i hp
        obtain ⟨t, ht⟩ := List.isPrefixOf_iff_prefix.mp hp
        exact absurd ht.symm (by simpa using h [] t)
      · rw [Option.map_eq_none_iff, cutAt_none hn]
        intro a b hab
        exact h (c :: a) b (by simp [hab])

theorem cutAt_isSome {n : Str} (hn : n ≠ []) (s : Str) : (cutAt n s).isSome = true ↔ ∃ a b, s = a ++ n ++ b := by
  constructor
  · intro h
    obtain ⟨⟨a, b⟩, hp⟩ := Option.isSome_iff_exists.mp h
    exact ⟨a, b, (cutAt_some hn hp).1⟩
  · rintro ⟨a, b, h⟩
    cases hc : cutAt n s with
    | none => exact absurd h ((cutAt_none hn).mp hc a b)
    | some _ => rfl

theorem semitag_ne : ";tag=".toList ≠ ([] : Str) := by decide

/-! ## The headers of a response -/

/-- headers with one name -/
def named (n : String) (vs : List Str) : List Header := vs.map (fun v => ⟨n.toList, v⟩)

/-- the headers of a response: those copied, a CSeq, a To, a Content-Length, and further ones -/
def frame (rq : Headers) (cs to : List Str) (cl : Str) (ex : List Header) : List Header :=
  named "Via" (rq.getAll "Via".toList) ++ (named "From" (rq.get "From".toList).toList ++
    (named "Call-ID" (rq.get "Call-ID".toList).toList ++ (named "CSeq" cs ++ (named "To" to ++
      (named "Record-Route" (rq.getAll "Record-Route".toList) ++ (named "Content-Length" [cl] ++ ex))))))

theorem copyHeader_named (rq : Headers) (n : String) :
    (copyHeader rq n).map (fun p => (⟨p.1.toList, p.2⟩ : Header)) = named n (rq.get n.toList).toList := by
  unfold copyHeader named
  cases rq.get n.toList <;> rfl

theorem answerHeaders_frame (rq : Headers) : (answerHeaders rq).map (fun p => (⟨p.1.toList, p.2⟩ : Header)) =
    frame rq (rq.get "CSeq".toList).toList (rq.get "To".toList).toList "0".toList [] := by
  unfold answerHeaders frame
  simp only [List.map_append, copyHeader_named, List.map_map, List.append_assoc]
  rfl

theorem overwrite_skip (n v : Str) : ∀ (pre rest : List Header), (∀ h ∈ pre, h.nameEq n = false) →
    Headers.overwriteFirst n v (pre ++ rest) = (Headers.overwriteFirst n v rest).map (pre ++ ·)
  | [], rest, _ => by simp
  | h :: t, rest, hp => by
    simp only [List.cons_append, Headers.overwriteFirst, hp h (by simp), Bool.false_eq_true, if_false]
    rw [overwrite_skip n v t rest (fun x hx => hp x (by simp [hx])), Option.map_map]
    rfl

theorem overwrite_named (n m : String) (v : Str) (vs : List Str) (rest : List Header)
    (h : eqIgnoreCase m.toList n.toList = false) :
    Headers.overwriteFirst n.toList v (named m vs ++ rest) = (Headers.overwriteFirst n.toList v rest).map (named m vs ++ ·) := by
  apply overwrite_skip
  intro x hx
  unfold named at hx
  obtain ⟨y, _, rfl⟩ := List.mem_map.mp hx
  exact h

theorem overwrite_hit (n : String) (v a : Str) (rest : List Header) :
    Headers.overwriteFirst n.toList v (named n [a] ++ rest) = some (named n [v] ++ rest) := by
  simp [named, Headers.overwriteFirst, Header.nameEq, eqIgnoreCase]

theorem overwrite_to (rq : Headers) (cs : List Str) (t cl v : Str) (ex : List Header) :
    Headers.overwriteFirst "To".toList v (frame rq cs [t] cl ex) = some (frame rq cs [v] cl ex) := by
  unfold frame
  rw [overwrite_named "To" "Via" _ _ _ (by decide), overwrite_named "To" "From" _ _ _ (by decide),
    overwrite_named "To" "Call-ID" _ _ _ (by decide), overwrite_named "To" "CSeq" _ _ _ (by decide), overwrite_hit]
  rfl

theorem overwrite_cseq (rq : Headers) (to : List Str) (c cl v : Str) (ex : List Header) :
    Headers.overwriteFirst "CSeq".toList v (frame rq [c] to cl ex) = some (frame rq [v] to cl ex) := by
  unfold frame
  rw [overwrite_named "CSeq" "Via" _ _ _ (by decide), overwrite_named "CSeq" "From" _ _ _ (by decide),
    overwrite_named "CSeq" "Call-ID" _ _ _ (by decide), overwrite_hit]
  rfl

theorem overwrite_cl (rq : Headers) (cs to : List Str) (cl v : Str) (ex : List Header) :
    Headers.overwriteFirst "Content-Length".toList v (frame rq cs to cl ex) = some (frame rq cs to v ex) := by
  unfold frame
  rw [overwrite_named "Content-Length" "Via" _ _ _ (by decide), overwrite_named "Content-Length" "From" _ _ _ (by decide),
    overwrite_named "Content-Length" "Call-ID" _ _ _ (by decide), overwrite_named "Content-Length" "CSeq" _ _ _ (by decide),
    overwrite_named "Content-Length" "To" _ _ _ (by decide), overwrite_named "Content-Length" "Record-Route" _ _ _ (by decide),
    overwrite_hit]
  rfl

/-- the names in a frame -/
def baseNames : List String := ["Via", "From", "Call-ID", "CSeq", "To", "Record-Route", "Content-Length"]

/-- a name that is none of those in a frame -/
def Other (n : String) : Prop := ∀ m ∈ baseNames, eqIgnoreCase m.toList n.toList = false

instance (n : String) : Decidable (Other n) := inferInstanceAs (Decidable (∀ m ∈ baseNames, _))

theorem overwrite_other (n : String) (hn : Other n) (rq : Headers) (cs to : List Str) (cl v : Str) (ex : List Header) :
    Headers.overwriteFirst n.toList v (frame rq cs to cl ex) = (Headers.overwriteFirst n.toList v ex).map (frame rq cs to cl) := by
  have h : ∀ m ∈ baseNames, eqIgnoreCase m.toList n.toList = false := hn
  unfold frame
  rw [overwrite_named n "Via" _ _ _ (h _ (by decide)), overwrite_named n "From" _ _ _ (h _ (by decide)),
    overwrite_named n "Call-ID" _ _ _ (h _ (by decide)), overwrite_named n "CSeq" _ _ _ (h _ (by decide)),
    overwrite_named n "To" _ _ _ (h _ (by decide)), overwrite_named n "Record-Route" _ _ _ (h _ (by decide)),
    overwrite_named n "Content-Length" _ _ _ (h _ (by decide))]
  simp only [Option.map_map]
  rfl

theorem setOrPush_ok_inner {hs hs' : Headers} {n v : Str} (h : hs.setOrPush n v = .ok hs') :
    (Headers.overwriteFirst n v hs.inner = some hs'.inner) ∨
    (Headers.overwriteFirst n v hs.inner = none ∧ hs'.inner = hs.inner ++ [⟨n, v⟩]) := by
  unfold Headers.setOrPush at h
  split at h
  · cases h
  · split at h
    · cases h
    · split at h
      · rename_i l hl
        cases h
        exact Or.inl hl
      · rename_i hl
        split at h
        · cases h
        · cases h
          exact Or.inr ⟨hl, rfl⟩

theorem setE_some {r r' : Response} {n : String} {v : Str} (h : setE r n v = .done r') :
    ∃ hs, r' = { r with headers := hs } ∧ r.headers.setOrPush n.toList v = .ok hs := by
  unfold setE at h
  split at h
  · rename_i hs hh
    simp only [Run.done.injEq] at h
    exact ⟨hs, h.symm, hh⟩
  · cases h

theorem pushU_some {r r' : Response} {n : String} {v : Str} (h : pushU r n v = .done r') :
    r' = { r with headers := ⟨r.headers.inner ++ [⟨n.toList, v⟩]⟩ } := by
  unfold pushU at h
  split at h
  · rename_i hs hh
    simp only [Run.done.injEq] at h
    have := C24_push _ _ _ _ hh
    cases hs
    simp only at this
    rw [← h, this]
  · cases h

/-- the headers are a frame -/
def Framed (rq : Headers) (r : Response) (cs to : List Str) (cl : Str) (ex : List Header) : Prop :=
  r.headers.inner = frame rq cs to cl ex

theorem framed_push {rq : Headers} {r r' : Response} {cs to : List Str} {cl : Str} {ex : List Header} {n : String} {v : Str}
    (hf : Framed rq r cs to cl ex) (h : pushU r n v = .done r') :
    Framed rq r' cs to cl (ex ++ [⟨n.toList, v⟩]) ∧ r'.code = r.code ∧ r'.reason = r.reason ∧ r'.body = r.body := by
  rw [pushU_some h]
  unfold Framed at *
  refine ⟨?_, rfl, rfl, rfl⟩
  simp only [hf]
  simp [frame]

theorem framed_set_other {rq : Headers} {r r' : Response} {cs to : List Str} {cl : Str} {ex : List Header} {n : String} {v : Str}
    (hn : Other n) (hx : ∀ h ∈ ex, h.nameEq n.toList = false)
    (hf : Framed rq r cs to cl ex) (h : setE r n v = .done r') :
    Framed rq r' cs to cl (ex ++ [⟨n.toList, v⟩]) ∧ r'.code = r.code ∧ r'.reason = r.reason ∧ r'.body = r.body := by
  obtain ⟨hs, rfl, hh⟩ := setE_some h
  refine ⟨?_, rfl, rfl, rfl⟩
  unfold Framed at *
  have ho : Headers.overwriteFirst n.toList v (frame rq cs to cl ex) = none := by
    rw [overwrite_other n hn]
    have := overwrite_skip n.toList v ex [] hx
    simp only [List.append_nil, Headers.overwriteFirst, Option.map_none] at this
    rw [this]
    rfl
  rcases setOrPush_ok_inner hh with h1 | ⟨_, h2⟩
  · rw [hf, ho] at h1; cases h1
  · simp only [h2, hf]
    simp [frame]

theorem framed_set_to {rq : Headers} {r r' : Response} {cs : List Str} {t cl : Str} {ex : List Header} {v : Str}
    (hf : Framed rq r cs [t] cl ex) (h : setE r "To" v = .done r') :
    Framed rq r' cs [v] cl ex ∧ r'.code = r.code ∧ r'.reason = r.reason ∧ r'.body = r.body := by
  obtain ⟨hs, rfl, hh⟩ := setE_some h
  refine ⟨?_, rfl, rfl, rfl⟩
  unfold Framed at *
  rcases setOrPush_ok_inner hh with h1 | ⟨h1, _⟩
  · rw [hf, overwrite_to] at h1
    simpa using h1.symm
  · rw [hf, overwrite_to] at h1; cases h1

theorem framed_set_cseq {rq : Headers} {r r' : Response} {to : List Str} {c cl : Str} {ex : List Header} {v : Str}
    (hf : Framed rq r [c] to cl ex) (h : setE r "CSeq" v = .done r') :
    Framed rq r' [v] to cl ex ∧ r'.code = r.code ∧ r'.reason = r.reason ∧ r'.body = r.body := by
  obtain ⟨hs, rfl, hh⟩ := setE_some h
  refine ⟨?_, rfl, rfl, rfl⟩
  unfold Framed at *
  rcases setOrPush_ok_inner hh with h1 | ⟨h1, _⟩
  · rw [hf, overwrite_cseq] at h1
    simpa using h1.symm
  · rw [hf, overwrite_cseq] at h1; cases h1

theorem framed_set_cl {rq : Headers} {r r' : Response} {cs to : List Str} {cl : Str} {ex : List Header} {v : Str}
    (hf : Framed rq r cs to cl ex) (h : setE r "Content-Length" v = .done r') :
    Framed rq r' cs to v ex ∧ r'.code = r.code ∧ r'.reason = r.reason ∧ r'.body = r.body := by
  obtain ⟨hs, rfl, hh⟩ := setE_some h
  refine ⟨?_, rfl, rfl, rfl⟩
  unfold Framed at *
  rcases setOrPush_ok_inner hh with h1 | ⟨h1, _⟩
  · rw [hf, overwrite_cl] at h1
    simpa using h1.symm
  · rw [hf, overwrite_cl] at h1; cases h1

theorem find_skip (p : Header → Bool) : ∀ (pre rest : List Header), (∀ h ∈ pre, p h = false) →
    (pre ++ rest).find? p = rest.find? p
  | [], _, _ => rfl
  | h :: t, rest, hp => by
    simp only [List.cons_append, List.find?_cons, hp h (by simp)]
    exact find_skip p t rest (fun x hx => hp x (by simp [hx]))

theorem find_named (m : String) (h : (m.toList == "To".toList) = false) (vs : List Str) (rest : List Header) :
    (named m vs ++ rest).find? (fun h => h.name == "To".toList) = rest.find? (fun h => h.name == "To".toList) := by
  apply find_skip
  intro x hx
  unfold named at hx
  obtain ⟨y, _, rfl⟩ := List.mem_map.mp hx
  exact h

theorem exactTo_framed {rq : Headers} {r : Response} {cs to : List Str} {cl : Str} {ex : List Header}
    (hf : Framed rq r cs to cl ex) (hx : ∀ h ∈ ex, (h.name == "To".toList) = false) : exactTo r.headers = to.head? := by
  unfold exactTo Framed at *
  rw [hf]
  unfold frame
  rw [find_named "Via" (by decide), find_named "From" (by decide), find_named "Call-ID" (by decide), find_named "CSeq" (by decide)]
  cases to with
  | cons t rest => simp [named]
  | nil =>
    simp only [named, List.map_nil, List.nil_append]
    have := find_named "Record-Route" (by decide) (rq.getAll "Record-Route".toList) (named "Content-Length" [cl] ++ ex)
    unfold named at this
    rw [this, find_skip _ _ ex]
    · have := find_skip (fun h => h.name == "To".toList) ex [] hx
      simp only [List.append_nil] at this
      rw [this]
      simp
    · intro h hh
      simp only [List.map_cons, List.map_nil, List.mem_singleton] at hh
      subst hh
      exact (by decide : ("Content-Length".toList == "To".toList) = false)

/-- the To value after `ensure_to_tag` -/
def toTagged (tag v : Str) : Str := if (cutAt ";tag=".toList v).isSome then v else v ++ ";tag=".toList ++ tag

theorem toTagged_has (tag v : Str) : (cutAt ";tag=".toList (toTagged tag v)).isSome = true := by
  unfold toTagged
  split
  · assumption
  · rw [cutAt_isSome semitag_ne]
    exact ⟨v, tag, rfl⟩

theorem toTagged_idem (tag v : Str) : toTagged tag (toTagged tag v) = toTagged tag v := by
  rw [toTagged, if_pos (toTagged_has tag v)]

theorem framed_ensure {rq : Headers} {r r' : Response} {cs : List Str} {t : Option Str} {cl : Str} {ex : List Header} {tag : Str}
    (hf : Framed rq r cs t.toList cl ex) (hx : ∀ h ∈ ex, (h.name == "To".toList) = false) (h : ensureToTag r tag = .done r') :
    Framed rq r' cs (t.map (toTagged tag)).toList cl ex ∧ r'.code = r.code ∧ r'.reason = r.reason ∧ r'.body = r.body := by
  unfold ensureToTag at h
  rw [exactTo_framed hf hx] at h
  cases t with
  | none =>
    simp only [Option.toList_none, List.head?_nil, Run.done.injEq] at h
    subst h
    exact ⟨hf, rfl, rfl, rfl⟩
  | some v =>
    simp only [Option.toList_some, List.head?_cons] at h
    simp only [Option.map_some, Option.toList_some, toTagged]
    split at h
    · rename_i hc
      simp only [Run.done.injEq] at h
      subst h
      rw [if_pos hc]
      exact ⟨hf, rfl, rfl, rfl⟩
    · rename_i hc
      rw [if_neg hc]
      exact framed_set_to hf h

theorem framed_replace {rq : Headers} {r r' : Response} {cs : List Str} {t : Option Str} {cl : Str} {ex : List Header} {tag : Str}
    (hf : Framed rq r cs t.toList cl ex) (hx : ∀ h ∈ ex, (h.name == "To".toList) = false) (h : replaceToTag r tag = .done r') :
    Framed rq r' cs (t.map (fun v => stripTag v ++ ";tag=".toList ++ tag)).toList cl ex ∧ r'.code = r.code ∧ r'.reason = r.reason ∧
      r'.body = r.body := by
  unfold replaceToTag at h
  rw [exactTo_framed hf hx] at h
  cases t with
  | none =>
    simp only [Option.toList_none, List.head?_nil, Run.done.injEq] at h
    subst h
    exact ⟨hf, rfl, rfl, rfl⟩
  | some v =>
    simp only [Option.toList_some, List.head?_cons] at h
    exact framed_set_to hf h

theorem response_new {c : Nat} {s : Str} {hs : Headers} {b : Bytes} {r : Response} (h : Response.new c s hs b = .ok r) :
    r = ⟨c, s, hs, b⟩ := by
  unfold Response.new at h
  split at h
  · cases h
  · split at h
    · cases h
    · split at h
      · cases h
      · cases h; rfl

/-- the To values of a response built for `rq` -/
def toOf (rq : Headers) (code : Nat) (tag : Str) : Option Str :=
  if code = 100 then rq.get "To".toList else (rq.get "To".toList).map (toTagged tag)

theorem framed_create {rq : Headers} {c : Nat} {s tag : Str} {r : Response} (h : createResponse rq c s tag = .done r) :
    Framed rq r (rq.get "CSeq".toList).toList (toOf rq c tag).toList "0".toList [] ∧ r.code = c ∧ r.reason = s ∧ r.body = [] := by
  unfold createResponse at h
  split at h
  · cases h
  · rename_i hs hh
    have hi := addAll_inner _ _ _ hh
    simp only [Headers.empty, List.nil_append] at hi
    rw [answerHeaders_frame] at hi
    split at h
    · cases h
    · rename_i r0 hr
      have := response_new hr
      subst this
      unfold toOf
      split at h
      · rename_i hc
        simp only [Run.done.injEq] at h
        subst h
        rw [if_pos hc]
        exact ⟨hi, rfl, rfl, rfl⟩
      · rename_i hc
        rw [if_neg hc]
        exact framed_ensure (r := ⟨c, s, hs, []⟩) hi (by simp) h

theorem framed_sdp {rq : Headers} {r r' : Response} {cs to : List Str} {cl : Str} {ex : List Header} {b : Option Str}
    (hf : Framed rq r cs to cl ex) (h : attachSdp r b = .done r') :
    r'.code = r.code ∧ r'.reason = r.reason ∧
    match b with
    | none => Framed rq r' cs to cl ex ∧ r'.body = r.body
    | some s => Framed rq r' cs to (showNat (utf8Len s)) (ex ++ named "Content-Type" ["application/sdp".toList]) ∧ r'.body = utf8 s := by
  cases b with
  | none =>
    simp only [attachSdp, Run.done.injEq] at h
    subst h
    exact ⟨rfl, rfl, hf, rfl⟩
  | some s =>
    simp only [attachSdp, Run.bind_eq_done] at h
    obtain ⟨r1, h1, r2, h2, h3⟩ := h
    obtain ⟨f1, c1, s1, b1⟩ := framed_set_cl hf h1
    obtain ⟨f2, c2, s2, b2⟩ := framed_push f1 h2
    split at h3
    · cases h3
    · rename_i r3 hr
      simp only [Run.done.injEq] at h3
      subst h3
      have := response_new hr
      subst this
      exact ⟨by simp [c2, c1], by simp [s2, s1], f2, rfl⟩

/-! ## Reading a frame -/

theorem getAll_named (m n : Str) (vs : List Str) (rest : List Header) :
    Headers.getAll ⟨vs.map (fun v => (⟨m, v⟩ : Header)) ++ rest⟩ n = (if eqIgnoreCase m n then vs else []) ++ Headers.getAll ⟨rest⟩ n := by
  rw [Dlg.getAll_append]
  congr 1
  simp only [Headers.getAll, Header.nameEq]
  by_cases h : eqIgnoreCase m n = true
  · rw [if_pos h]
    induction vs with
    | nil => rfl
    | cons v vs ih =>
      simp only [List.map_cons, List.filter_cons, h, if_true]
      exact congrArg (v :: ·) ih
  · rw [if_neg h]
    simp [h]

theorem getAll_frame (rq : Headers) (cs to : List Str) (cl : Str) (ex : List Header) (n : Str) :
    Headers.getAll ⟨frame rq cs to cl ex⟩ n =
      (if eqIgnoreCase "Via".toList n then rq.getAll "Via".toList else []) ++
      ((if eqIgnoreCase "From".toList n then (rq.get "From".toList).toList else []) ++
      ((if eqIgnoreCase "Call-ID".toList n then (rq.get "Call-ID".toList).toList else []) ++
      ((if eqIgnoreCase "CSeq".toList n then cs else []) ++
      ((if eqIgnoreCase "To".toList n then to else []) ++
      ((if eqIgnoreCase "Record-Route".toList n then rq.getAll "Record-Route".toList else []) ++
      ((if eqIgnoreCase "Content-Length".toList n then [cl] else []) ++ Headers.getAll ⟨ex⟩ n)))))) := by
  unfold frame named
  rw [getAll_named, getAll_named, getAll_named, getAll_named, getAll_named, getAll_named, getAll_named]

/-- the further headers of a frame have other names than the fixed ones -/
def Others (ex : List Header) : Prop := ∀ n ∈ baseNames, Headers.getAll ⟨ex⟩ n.toList = []

theorem framed_base {rq : Headers} {r : Response} {cs to : List Str} {cl : Str} {ex : List Header}
    (hf : Framed rq r cs to cl ex) (hx : Others ex) :
    r.headers.getAll "Via".toList = rq.getAll "Via".toList ∧ r.headers.getAll "From".toList = (rq.get "From".toList).toList ∧
    r.headers.getAll "Call-ID".toList = (rq.get "Call-ID".toList).toList ∧ r.headers.getAll "CSeq".toList = cs ∧
    r.headers.getAll "To".toList = to ∧ r.headers.getAll "Record-Route".toList = rq.getAll "Record-Route".toList ∧
    r.headers.getAll "Content-Length".toList = [cl] := by
  have e : r.headers = ⟨frame rq cs to cl ex⟩ := by
    unfold Framed at hf
    rw [← hf]
  rw [e]
  refine ⟨?_, ?_, ?_, ?_, ?_, ?_, ?_⟩ <;> rw [getAll_frame, hx _ (by decide)]
  · rw [if_pos (by decide), if_neg (by decide), if_neg (by decide), if_neg (by decide), if_neg (by decide), if_neg (by decide),
      if_neg (by decide)]; simp
  · rw [if_neg (by decide), if_pos (by decide), if_neg (by decide), if_neg (by decide), if_neg (by decide), if_neg (by decide),
      if_neg (by decide)]; simp
  · rw [if_neg (by decide), if_neg (by decide), if_pos (by decide), if_neg (by decide), if_neg (by decide), if_neg (by decide),
      if_neg (by decide)]; simp
  · rw [if_neg (by decide), if_neg (by decide), if_neg (by decide), if_pos (by decide), if_neg (by decide), if_neg (by decide),
      if_neg (by decide)]; simp
  · rw [if_neg (by decide), if_neg (by decide), if_neg (by decide), if_neg (by decide), if_pos (by decide), if_neg (by decide),
      if_neg (by decide)]; simp
  · rw [if_neg (by decide), if_neg (by decide), if_neg (by decide), if_neg (by decide), if_neg (by decide), if_pos (by decide),
      if_neg (by decide)]; simp
  · rw [if_neg (by decide), if_neg (by decide), if_neg (by decide), if_neg (by decide), if_neg (by decide), if_neg (by decide),
      if_pos (by decide)]; simp

end Siphon.Uas
