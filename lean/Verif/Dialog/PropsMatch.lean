import Verif.Dialog.Props
set_option linter.unusedSimpArgs false
/-!
# Finding the dialog of a message: C19, and reading tags: C74
-/
namespace Siphon.Dlg
open Spec TextSpec HdrSpec

/-! ## C19 -/

theorem assemble_id {id : DialogId} {st : DState} {t : SipUri} {rs : Except DErr (List SipUri)} {c : Option Nat}
    {se : Option SessionExpires} {l r : SipUri} {b : Bool} {d : Dialog} (h : assemble id st t rs c se l r b = some d) :
    d.id = id := by
  unfold assemble at h
  repeat' split at h
  all_goals first
    | cases h; rfl
    | cases h

/-- **C19.** A dialog made by the caller is named by the Call-ID of the response, the From tag as its own and the
To tag as the peer's. -/
theorem C19_uac_named (req : Request) (resp : Response) (l r : SipUri) (d : Dialog)
    (h : Dialog.newUac req resp l r = .done (some d)) : Names resp.headers d.id.callId d.id.localTag d.id.remoteTag := by
  unfold Dialog.newUac at h
  split at h
  · cases h
  · cases h
  · rename_i i hi
    split at h
    · cases h
    · simp only [Run.done.injEq] at h
      rw [assemble_id h]
      exact fromRequest_some hi

/-- **C19.** A dialog made by the callee has them the other way round. -/
theorem C19_uas_named (req : Request) (resp : Response) (l r : SipUri) (d : Dialog)
    (h : Dialog.newUas req resp l r = .done (some d)) : Names resp.headers d.id.callId d.id.remoteTag d.id.localTag := by
  unfold Dialog.newUas at h
  split at h
  · cases h
  · cases h
  · rename_i i hi
    split at h
    · cases h
    · simp only [Run.done.injEq] at h
      rw [assemble_id h]
      exact fromResponseUas_some hi

/-- **C19.** The two ends of one call hold mirrored identifiers: both make their dialog from the same response. -/
theorem C19_mirrored (req req' : Request) (resp resp' : Response) (l r l' r' : SipUri) (d d' : Dialog)
    (hh : resp'.headers = resp.headers) (hc : Dialog.newUac req resp l r = .done (some d))
    (hs : Dialog.newUas req' resp' l' r' = .done (some d')) :
    d'.id.callId = d.id.callId ∧ d'.id.localTag = d.id.remoteTag ∧ d'.id.remoteTag = d.id.localTag := by
  have h1 := C19_uac_named req resp l r d hc
  have h2 := C19_uas_named req' resp' l' r' d' hs
  rw [hh] at h2
  obtain ⟨a, b, c⟩ := names_unique h1 h2
  exact ⟨a.symm, c.symm, b.symm⟩

/-- **C19.** A request matches a dialog exactly when its Call-ID is the dialog's, its From tag is the peer's and its
To tag is ours (unless reading its tags panics, see C74). -/
theorem C19_matches_iff (d : Dialog) (hs : Headers) (b : Bool) (h : d.matchesRequest hs = .done b) :
    b = true ↔ Names hs d.id.callId d.id.remoteTag d.id.localTag := by
  unfold Dialog.matchesRequest at h
  split at h
  · cases h
  · rename_i hn
    cases h
    simp only [Bool.false_eq_true, false_iff]
    exact fromRequest_none hn _ _ _
  · rename_i i hi
    simp only [Run.done.injEq] at h
    rw [← h]
    simp only [Bool.and_eq_true, beq_iff_eq]
    have hN := fromRequest_some hi
    constructor
    · rintro ⟨⟨h1, h2⟩, h3⟩
      rw [← h1, ← h2, ← h3]
      exact hN
    · intro h'
      obtain ⟨a, b, c⟩ := names_unique hN h'
      exact ⟨⟨a, b⟩, c⟩

/-- **C19.** The manager finds, for a request, a dialog it holds and to which the request belongs; … -/
theorem C19_found (ops : List MOp) (hs : Headers) (d : Dialog) (h : (Mgr.run ops).findByRequest hs = .done (some d)) :
    Names hs d.id.callId d.id.remoteTag d.id.localTag ∧ (Mgr.run ops).get d.id = some d := by
  unfold Mgr.findByRequest at h
  split at h
  · cases h
  · cases h
  · rename_i i hi
    simp only [Run.done.injEq] at h
    have hm := Tbl.mem_of_get _ _ _ h
    have ho := (tableOk_run ops).own _ hm
    simp only at ho
    rw [ho]
    exact ⟨fromRequest_some hi, h⟩

/-- **C19.** … and when it finds none, it holds none to which the request belongs. -/
theorem C19_not_found (m : Mgr) (hs : Headers) (h : m.findByRequest hs = .done none) :
    ∀ i d, m.get i = some d → ¬ Names hs i.callId i.remoteTag i.localTag := by
  intro i d hd hN
  unfold Mgr.findByRequest at h
  split at h
  · cases h
  · rename_i hn
    exact fromRequest_none hn _ _ _ hN
  · rename_i j hj
    obtain ⟨a, b, c⟩ := names_unique (fromRequest_some hj) hN
    simp only [Run.done.injEq] at h
    rw [a, b, c] at h
    rw [h] at hd
    cases hd

/-- **C19.** So a request carrying the names of a held dialog is handed to that dialog and no other, if all its
header values are ASCII. -/
theorem C19_delivered (ops : List MOp) (hs : Headers) (d : Dialog) (ha : AsciiHeaders hs)
    (hd : (Mgr.run ops).get d.id = some d) (hn : Names hs d.id.callId d.id.remoteTag d.id.localTag) :
    (Mgr.run ops).findByRequest hs = .done (some d) := by
  cases hf : (Mgr.run ops).findByRequest hs with
  | panic =>
    unfold Mgr.findByRequest at hf
    split at hf
    · rename_i hp; exact absurd hp (fromRequest_ascii ha)
    · cases hf
    · cases hf
  | done o =>
    cases o with
    | none => exact absurd hn (C19_not_found _ _ hf _ _ hd)
    | some e =>
      obtain ⟨h1, h2⟩ := C19_found ops hs e hf
      obtain ⟨a, b, c⟩ := names_unique h1 hn
      have : e.id = d.id := by
        cases hx : e.id; cases hy : d.id
        rw [hx, hy] at a b c
        simp only at a b c
        rw [a, b, c]
      rw [this, hd] at h2
      rw [Option.some.inj h2]

/-! ## C74 -/

/-- **C74, violated.** When reading the tag of a From or To value panics: some piece between semicolons, before any
tag, is at least four bytes long and has no character boundary after four bytes. -/
theorem C74_panics_iff (v : Str) : extractTag v = .panic ↔
    ∃ pre p post s, Pieces ';' v (pre ++ p :: post) ∧ (∀ q ∈ pre, ∀ x, ¬ TagPiece q x) ∧ Strips isWs p s ∧
      4 ≤ utf8Len s ∧ ∀ a b, s = a ++ b → utf8Len a ≠ 4 := by
  constructor
  · intro h
    obtain ⟨pre, p, post, hs, h1, h2, h3⟩ := tagIn_panic _ h
    exact ⟨pre, p, post, trim p, (pieces_iff _ _ _).2 hs.symm, h3, (strips_trim _ _).2 rfl, h1, h2⟩
  · rintro ⟨pre, p, post, s, hp, hn, hs, h1, h2⟩
    rw [strips_trim] at hs
    subst hs
    unfold extractTag
    rw [← (pieces_iff _ _ _).1 hp]
    exact tagIn_panic_conv pre p post h1 h2 hn

private def zoe : Headers :=
  ⟨[{ name := "From".toList, value := "\"Zoë\" <sip:zoe@example.org>;tag=1".toList },
    { name := "To".toList, value := "<sip:bob@example.org>;tag=2".toList },
    { name := "Call-ID".toList, value := "c1".toList }]⟩

/-- **C74, violated.** A caller named Zoë takes the receiving task down: looking up the dialog of the request
panics. -/
theorem C74_display_name_panics (m : Mgr) : m.findByRequest zoe = .panic ∧ DialogId.fromRequest zoe = .panic := by
  have h : DialogId.fromRequest zoe = .panic := by decide +kernel
  exact ⟨by unfold Mgr.findByRequest; rw [h], h⟩

/-- **C74 (partial).** With ASCII header values no lookup panics: neither finding nor matching a dialog nor making
one. -/
theorem C74_ascii_partial (m : Mgr) (d : Dialog) (hs : Headers) (h : AsciiHeaders hs) :
    m.findByRequest hs ≠ .panic ∧ d.matchesRequest hs ≠ .panic ∧
    (∀ req resp l r, resp.headers = hs → Dialog.newUac req resp l r ≠ .panic ∧ Dialog.newUas req resp l r ≠ .panic) := by
  refine ⟨?_, ?_, ?_⟩
  · unfold Mgr.findByRequest
    split
    · rename_i hp; exact absurd hp (fromRequest_ascii h)
    · simp
    · simp
  · unfold Dialog.matchesRequest
    split
    · rename_i hp; exact absurd hp (fromRequest_ascii h)
    · simp
    · simp
  · rintro req resp l r rfl
    constructor
    · unfold Dialog.newUac
      split
      · rename_i hp; exact absurd hp (fromRequest_ascii h)
      · simp
      · split <;> simp
    · unfold Dialog.newUas
      split
      · rename_i hp; exact absurd hp (fromResponseUas_ascii h)
      · simp
      · split <;> simp

/-! ## The hypotheses are met -/

private def hx (f t : String) : Headers :=
  ⟨[{ name := "From".toList, value := f.toList }, { name := "To".toList, value := t.toList },
    { name := "Call-ID".toList, value := "c1".toList }, { name := "CSeq".toList, value := "3 INVITE".toList }]⟩
private def ux (s : String) : SipUri := { raw := ("sip:" ++ s).toList, sips := false, user := none, host := s.toList, port := none, params := [], headers := [] }
private def reqx (f t : String) : Request := { method := .invite, uri := "sip:b".toList, headers := hx f t, body := [] }
private def respx (f t : String) : Response := { code := 200, reason := [], headers := hx f t, body := [] }

-- the two ends of one call
example : (match Dialog.newUac (reqx "<sip:a>;tag=1" "<sip:b>") (respx "<sip:a>;tag=1" "<sip:b>;Tag=2") (ux "a") (ux "b"),
      Dialog.newUas (reqx "<sip:a>;tag=1" "<sip:b>") (respx "<sip:a>;tag=1" "<sip:b>;Tag=2") (ux "b") (ux "a") with
    | .done (some d), .done (some e) => (d.id.localTag, d.id.remoteTag, e.id.localTag, e.id.remoteTag)
    | _, _ => ([], [], [], [])) = ("1".toList, "2".toList, "2".toList, "1".toList) := by decide +kernel

/-- **C19, finding.** A `;tag=` parameter inside the angle brackets of the URI is taken for the tag. -/
theorem C19_tag_inside_uri : DialogId.fromRequest (hx "<sip:a@h;tag=9>;tag=1" "<sip:b>;tag=2") =
    .done (some { callId := "c1".toList, localTag := "9>".toList, remoteTag := "2".toList }) := by decide +kernel

end Siphon.Dlg
