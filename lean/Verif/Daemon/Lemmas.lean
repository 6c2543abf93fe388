import Verif.Daemon.Spec
import Verif.Uas.CrashProps
import Verif.Dialog.PropsCreate
import Verif.Bridge.PropsReinvite
import Verif.Sub.PropsNotify
set_option linter.unusedSimpArgs false
set_option linter.unusedVariables false
/-!
# Lemmas about the daemon as a user agent server
-/
namespace Siphon.Daemon
open HdrSpec TextSpec
open Siphon.Dlg.Spec
open Siphon.Uas.Spec
open Siphon.Bridge.Spec (Copies Lines Fits Ascii)
open Siphon.Bridge (putAll answerTo keepDialog bracket noSuchCall lines_putAll GoodName copies_iff pushQuiet_inner)
open Siphon.Dlg (Dialog DialogId Mgr MOp Validator copyHeader dialogIdKey first_iff absent_iff)
open Siphon.Uas (createResponse createOk Safe Short ReasonOk acceptInvite)
open Siphon.Sub (pushQuiet pushQuiet_getAll)
open Spec

/-! ## Requests that can be answered -/

theorem Spec.Fine.safe {rq : Request} (h : Fine rq) : Safe rq.headers :=
  ⟨h.stored, Nat.le_trans h.few (by omega), h.to, h.cseq⟩

theorem alnum_facts {c : Char} (h : c.isAlphanum = true) : 48 ≤ c.toNat ∧ c.toNat ≤ 122 ∧ c ≠ ';' ∧ c ≠ ':' := by
  have e : ∀ d : Char, c = d → c.toNat = d.toNat := fun d e => by rw [e]
  have h1 := e ';'
  have h2 := e ':'
  have s1 : ';'.toNat = 59 := rfl
  have s2 : ':'.toNat = 58 := rfl
  simp only [Char.isAlphanum, Char.isAlpha, Char.isUpper, Char.isLower, Char.isDigit, Bool.or_eq_true, Bool.and_eq_true, decide_eq_true_eq,
    ge_iff_le, UInt32.le_iff_toNat_le] at h
  have hv : c.toNat = c.val.toNat := rfl
  have n1 : 'A'.val.toNat = 65 := rfl
  have n2 : 'Z'.val.toNat = 90 := rfl
  have n3 : 'a'.val.toNat = 97 := rfl
  have n4 : 'z'.val.toNat = 122 := rfl
  have n5 : '0'.val.toNat = 48 := rfl
  have n6 : '9'.val.toNat = 57 := rfl
  refine ⟨by omega, by omega, fun e => ?_, fun e => ?_⟩
  · have := h1 e; omega
  · have := h2 e; omega

theorem Spec.GoodTag.ascii {t : Str} (h : GoodTag t) : ∀ c ∈ t, c.toNat < 128 := fun c hc => by
  have := alnum_facts (h.2 c hc); omega

theorem Spec.GoodTag.short {t : Str} (h : GoodTag t) : Short t := by
  constructor
  · refine ⟨fun hc => ?_, fun hc => ?_, fun hc => ?_⟩ <;>
      · have h1 := alnum_facts (h.2 _ hc)
        revert h1; decide
  · rw [Uas.utf8_ascii h.ascii]; exact h.1

theorem Spec.GoodTag.noColon {t : Str} (h : GoodTag t) : ':' ∉ t := fun hc => (alnum_facts (h.2 _ hc)).2.2.2 rfl

theorem ws_not_alnum {c : Char} (h : c.isAlphanum = true) : isWs c = false := by
  have := alnum_facts h
  cases hw : isWs c with
  | false => rfl
  | true =>
    exfalso
    simp only [isWs, Bool.or_eq_true, beq_iff_eq, Bool.and_eq_true, decide_eq_true_eq] at hw
    omega

theorem Spec.GoodTag.text {t : Str} (h : GoodTag t) : Dlg.Spec.TagText t :=
  ⟨fun hc => (alnum_facts (h.2 _ hc)).2.2.1 rfl, fun a c e => ws_not_alnum (h.2 c (by rw [e]; simp))⟩

theorem Spec.GoodUri.fits {u : SipUri} (h : GoodUri u) : OneLine (Dlg.angle u) ∧ utf8Len (Dlg.angle u) ≤ 8192 := Uas.angle_fine h.1 h.2.1

/-! ## Responses -/

theorem answers_of {rq : Request} {code : Nat} {tag : Str} {r : Response} (hc : r.code = code)
    (h1 : r.headers.getAll "Via".toList = rq.headers.getAll "Via".toList)
    (h2 : r.headers.getAll "Record-Route".toList = rq.headers.getAll "Record-Route".toList)
    (h3 : r.headers.getAll "From".toList = (rq.headers.get "From".toList).toList)
    (h4 : r.headers.getAll "Call-ID".toList = (rq.headers.get "Call-ID".toList).toList)
    (h5 : r.headers.getAll "CSeq".toList = (rq.headers.get "CSeq".toList).toList)
    (h6 : r.headers.getAll "To".toList = (Uas.toOf rq.headers code tag).toList) : Answers rq code tag r := by
  refine ⟨hc, ⟨Uas.allCopied_of h1, Uas.allCopied_of h2, Uas.copied_of h3, Uas.copied_of h4⟩, Uas.copied_of h5, ?_, ?_, ?_⟩
  · rintro rfl
    refine Uas.copied_of ?_
    rw [h6]
    unfold Uas.toOf
    simp
  · intro hne v hv
    rw [first_iff] at hv
    refine ⟨Uas.toTagged tag v, ?_, Uas.tagged_toTagged v tag⟩
    rw [Dlg.selects_iff, h6]
    unfold Uas.toOf
    rw [hv]
    simp [hne]
  · intro ha
    have ha := (absent_iff _ _).mp ha
    unfold Absent
    rw [Dlg.selects_iff, h6]
    unfold Uas.toOf
    rw [ha]
    simp

theorem plain_answers {rq : Request} {i : Info} {code : Nat} {reason : String} {r : Response} (h : plain rq i code reason = .done r) :
    Answers rq code i.tag r ∧ r.body = [] := by
  obtain ⟨f, c, _, b⟩ := Uas.framed_create h
  obtain ⟨h1, h2, h3, h4, h5, h6, _⟩ := Uas.framed_base f (by intro x hx; rfl)
  exact ⟨answers_of c h1 h6 h2 h3 h4 h5, b⟩

theorem plain_done {rq : Request} {i : Info} {code : Nat} {reason : String} (hf : Fine rq) (ht : GoodTag i.tag)
    (hc : 100 ≤ code ∧ code ≤ 699) (hr : ReasonOk reason.toList) :
    ∃ r, plain rq i code reason = .done r ∧ Answers rq code i.tag r ∧ r.body = [] := by
  cases h : plain rq i code reason with
  | panic => exact absurd h (Uas.create_safe hf.safe hc hr ht.short)
  | done r => exact ⟨r, rfl, plain_answers h⟩

theorem header_fits {rq : Request} (hf : Fine rq) : ∀ x ∈ rq.headers.inner, Fits x.value := fun x hx =>
  ⟨(hf.stored.2 x hx).1.2, (hf.stored.2 x hx).2.2⟩

theorem goodNames : ∀ n ∈ ["Via", "From", "To", "Call-ID", "CSeq", "Content-Length", "RSeq", "Require", "Contact", "Session-Expires",
    "Supported", "Min-SE"], GoodName n := by
  unfold GoodName Token TokenChar
  decide

theorem copyHeader_fits {hs : Headers} (h : ∀ x ∈ hs.inner, Fits x.value) (n : String) : ∀ p ∈ copyHeader hs n, p.1 = n ∧ Fits p.2 := by
  intro p hp
  unfold copyHeader at hp
  split at hp
  · rename_i v hv
    rw [List.mem_singleton] at hp
    subst hp
    obtain ⟨x, hx, _, e⟩ := Bridge.get_mem_inner hv
    subst e
    exact ⟨rfl, h x hx⟩
  · cases hp

theorem copyHeader_length (hs : Headers) (n : String) : (copyHeader hs n).length ≤ 1 := by
  unfold copyHeader
  split <;> simp

theorem answerTo_eq (hs : Headers) : answerTo hs = ["Via", "From", "To", "Call-ID", "CSeq"].flatMap (copyHeader hs) := by
  simp [answerTo, List.append_assoc]

theorem bare_answers {rq : Request} (hf : Fine rq) (code : Nat) (reason : String) : BareAnswer rq code (bare rq code reason) := by
  refine ⟨rfl, rfl, answerTo rq.headers, ?_, ?_⟩
  · rw [copies_iff, answerTo_eq]
  · refine lines_putAll ?_ ?_
    · have := fun n => copyHeader_length rq.headers n
      have h1 := this "Via"; have h2 := this "From"; have h3 := this "To"; have h4 := this "Call-ID"; have h5 := this "CSeq"
      simp only [answerTo, List.length_append]
      omega
    · intro p hp
      rw [answerTo_eq, List.mem_flatMap] at hp
      obtain ⟨n, hn, hp⟩ := hp
      obtain ⟨e, hfit⟩ := copyHeader_fits (header_fits hf) n p hp
      rw [e]
      refine ⟨goodNames n ?_, hfit⟩
      simp only [List.mem_cons, List.not_mem_nil, or_false] at hn ⊢
      rcases hn with h | h | h | h | h <;> simp [h]

theorem noSuchCall_answers {rq : Request} (hf : Fine rq) : BareAnswer rq 481 (noSuchCall rq) :=
  bare_answers hf 481 "Call/Transaction Does Not Exist"

/-! ## Finding dialogs -/

theorem find_none {m : Mgr} {hs : Headers} (ha : AsciiHeaders hs) (h : ∀ i, Names hs i.callId i.remoteTag i.localTag → m.get i = none) :
    m.findByRequest hs = .done none := by
  cases hf : m.findByRequest hs with
  | panic => exact absurd hf (Uas.find_safe ha)
  | done o =>
    cases o with
    | none => rfl
    | some d =>
      exfalso
      unfold Mgr.findByRequest at hf
      split at hf
      · cases hf
      · cases hf
      · rename_i i hi
        simp only [Run.done.injEq] at hf
        have := h ⟨i.callId, i.remoteTag, i.localTag⟩ (Dlg.fromRequest_some hi)
        rw [this] at hf
        cases hf

theorem find_some {m : Mgr} {hs : Headers} {d : Dialog} (h : m.findByRequest hs = .done (some d)) :
    ∃ i, Names hs i.callId i.remoteTag i.localTag ∧ m.get i = some d := by
  unfold Mgr.findByRequest at h
  split at h
  · cases h
  · cases h
  · rename_i i hi
    simp only [Run.done.injEq] at h
    exact ⟨_, Dlg.fromRequest_some hi, h⟩

theorem find_of {m : Mgr} {hs : Headers} {i : DialogId} {d : Dialog} (ha : AsciiHeaders hs) (hn : Names hs i.callId i.remoteTag i.localTag)
    (hg : m.get i = some d) : m.findByRequest hs = .done (some d) := by
  cases hf : m.findByRequest hs with
  | panic => exact absurd hf (Uas.find_safe ha)
  | done o =>
    cases o with
    | none => exact absurd hn (Dlg.C19_not_found _ _ hf _ _ hg)
    | some d' =>
      obtain ⟨j, hj, hg'⟩ := find_some hf
      obtain ⟨e1, e2, e3⟩ := Dlg.names_unique hn hj
      have : i = j := by
        cases i; cases j; simp only at e1 e2 e3; rw [e1, e2, e3]
      subst this
      rw [hg] at hg'
      cases hg'
      rfl

theorem names_id {hs : Headers} {i j : DialogId} (hi : Names hs i.callId i.remoteTag i.localTag) (hj : Names hs j.callId j.remoteTag j.localTag) :
    i = j := by
  obtain ⟨e1, e2, e3⟩ := Dlg.names_unique hi hj
  cases i; cases j; simp only at e1 e2 e3; rw [e1, e2, e3]

/-! ## Tables that are kept -/

theorem keepDialog_get (m : Mgr) (d : Dialog) {i : DialogId} (h : i ≠ d.id) : (keepDialog m d).get i = m.get i := by
  rcases Bridge.keepDialog_cases m d with e | ⟨_, e⟩ <;> rw [e]
  exact Tbl.get_insert_ne _ _ h

theorem keepDialog_full (m : Mgr) (d : Dialog) (h : (keepDialog m d).get d.id ≠ some d) : keepDialog m d = m := by
  rcases Bridge.keepDialog_cases m d with e | ⟨_, e⟩
  · exact e
  · exact absurd (by rw [e]; exact Tbl.get_insert_self _ _ _) h

/-! ## Runs -/

theorem run_cons (c : Cfg) (st : St) (e : Ev) (es : List Ev) :
    run c st (e :: es) = ((run c (step c st e).1 es).1, (step c st e).2 ++ (run c (step c st e).1 es).2) := rfl

theorem run_append (c : Cfg) : ∀ (a b : List Ev) (st : St),
    run c st (a ++ b) = ((run c (run c st a).1 b).1, (run c st a).2 ++ (run c (run c st a).1 b).2)
  | [], _, _ => by simp [run]
  | e :: a, b, st => by
    rw [List.cons_append, run_cons, run_append c a b, run_cons]
    simp

theorem run_snoc (c : Cfg) (a : List Ev) (e : Ev) (st : St) :
    run c st (a ++ [e]) = ((step c (run c st a).1 e).1, (run c st a).2 ++ (step c (run c st a).1 e).2) := by
  rw [run_append, run_cons]
  simp [run]

end Siphon.Daemon
