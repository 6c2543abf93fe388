import Verif.Daemon.PropsReplaces
import Verif.Daemon.CasesWithin
set_option linter.unusedSimpArgs false
/-!
# C121: calls that are to replace another, and what goes wrong
-/
namespace Siphon.Daemon
open HdrSpec TextSpec
open Siphon.Dlg.Spec
open Siphon.Uas.Spec
open Siphon.Bridge.Cases (hd)
open Siphon.Dlg (Dialog DialogId first_iff absent_iff)
open Spec

/-- An INVITE with Replaces by this user. -/
def swap (user replaces : String) : Request :=
  ⟨.invite, "sip:bob@10.0.0.2".toList, hd [("Via", "SIP/2.0/UDP 10.0.0.7;branch=z9hG4bK7"), ("From", "<sip:" ++ user ++ "@10.0.0.7>;tag=R"),
    ("To", "<sip:bob@10.0.0.2>"), ("Call-ID", "in7"), ("CSeq", "1 INVITE"), ("Contact", "<sip:x@10.0.0.7>"), ("Replaces", replaces)], []⟩

/-- Alice's call. -/
def named : String := "in1; to-tag=x2 ;early-only;from-tag=A"

theorem named_of : ReplacesOf named.toList hers := (replacesOf_iff _ _).mpr (by decide +kernel)

theorem swap_fine {user replaces : String} (h1 : HInv (swap user replaces).headers) (h2 : ∀ h ∈ (swap user replaces).headers.inner, ∀ c ∈ h.value, c.toNat < 128)
    (h3 : (swap user replaces).headers.get "To".toList = some "<sip:bob@10.0.0.2>".toList)
    (h4 : (swap user replaces).headers.get "CSeq".toList = some "1 INVITE".toList) : Fine (swap user replaces) :=
  fine_of (by show 7 ≤ 180; decide) h1 h2 (by intro v hv; rw [h3] at hv; cases hv; decide +kernel) (by intro v hv; rw [h4] at hv; cases hv; decide +kernel)

theorem swap_new {st : St} {user replaces : String} (h : (swap user replaces).headers.get "Call-ID".toList = some "in7".toList)
    (hno : ∀ j : DialogId, j.callId = "in7".toList → st.dialogs.get j = none) :
    ∀ j, Names (swap user replaces).headers j.callId j.remoteTag j.localTag → st.dialogs.get j = none := by
  intro j hj
  refine hno j ?_
  have := (first_iff _ _ _).mp hj.1
  rw [h] at this
  exact (Option.some.inj this).symm

theorem called_only (j : DialogId) (h : j.callId = "in7".toList) : (run cfg init (callEvents [])).1.dialogs.get j = none := by
  cases hg : (run cfg init (callEvents [])).1.dialogs.get j with
  | none => rfl
  | some d =>
    have hk : (run cfg init (callEvents [])).1.dialogs.dialogs.keys = [hers] := by decide +kernel
    have hm := Tbl.mem_of_get (run cfg init (callEvents [])).1.dialogs.dialogs j d hg
    have : j ∈ (run cfg init (callEvents [])).1.dialogs.dialogs.keys := List.mem_map.mpr ⟨_, hm, rfl⟩
    rw [hk, List.mem_singleton] at this
    subst this
    exact absurd h (by decide)

def users (st : St) : Option (Option Str × Option Str) := (st.dialogs.get hers).map (fun d => (d.localUri.user, d.remoteUri.user))

/-- `C121_taken`: Alice calls from elsewhere. -/
example : ∃ r, step cfg (run cfg init (callEvents [])).1 (.request 9 (swap "ALICE" named) (nfo "r0")) =
    ({ (run cfg init (callEvents [])).1 with
        tasks := (run cfg init (callEvents [])).1.tasks.insert (run cfg init (callEvents [])).1.next (.trying 9 (swap "ALICE" named) own),
        next := (run cfg init (callEvents [])).1.next + 1 }, [.provisional 9 r]) ∧ r.code = 100 := by
  obtain ⟨d, hd⟩ := Option.isSome_iff_exists.mp called_get
  have hu : users (run cfg init (callEvents [])).1 = some (some "bob".toList, some "alice".toList) := by decide +kernel
  unfold users at hu
  rw [hd] at hu
  simp only [Option.map_some, Option.some.injEq, Prod.mk.injEq] at hu
  obtain ⟨r, h1, h2, _⟩ := (C121_taken cfg (run cfg init (callEvents [])).1 9 (swap "ALICE" named) (nfo "r0") own named.toList hers d "ALICE".toList
    (swap_fine (Priv.hinv_of (by decide) (by decide +kernel)) (by decide +kernel) (by decide +kernel) (by decide +kernel)) (good_tag "r0" (by decide))
    ⟨rfl, no_limit (by decide +kernel), rfl⟩ rfl (swap_new (by decide +kernel) called_only) ((first_iff _ _ _).mpr (by decide +kernel)) named_of hd
    ⟨_, .inr hu.2, (sameName_iff _ _).mpr (by decide +kernel)⟩
    (.inl ⟨rfl, (fromUser_iff _ _).mpr ⟨⟨"sip:ALICE@10.0.0.7".toList, false, some "ALICE".toList, "10.0.0.7".toList, none, [], []⟩, by decide +kernel, rfl⟩⟩)
    (by decide +kernel)).2 rfl
  exact ⟨r, h1, h2.status⟩

/-- `C121_refused`: Eve has no part in the call. -/
example : ∃ r, step cfg (run cfg init (callEvents [])).1 (.request 9 (swap "eve" named) (nfo "r0")) = ((run cfg init (callEvents [])).1, [.final 9 r]) ∧ r.code = 481 := by
  obtain ⟨d, hd⟩ := Option.isSome_iff_exists.mp called_get
  have hu : users (run cfg init (callEvents [])).1 = some (some "bob".toList, some "alice".toList) := by decide +kernel
  unfold users at hu
  rw [hd] at hu
  simp only [Option.map_some, Option.some.injEq, Prod.mk.injEq] at hu
  obtain ⟨r, h1, h2, _⟩ := C121_refused cfg (run cfg init (callEvents [])).1 9 (swap "eve" named) (nfo "r0") named.toList hers
    (swap_fine (Priv.hinv_of (by decide) (by decide +kernel)) (by decide +kernel) (by decide +kernel) (by decide +kernel)) (good_tag "r0" (by decide))
    ⟨rfl, no_limit (by decide +kernel), rfl⟩ rfl (swap_new (by decide +kernel) called_only) ((first_iff _ _ _).mpr (by decide +kernel)) named_of
    (.inr ⟨d, hd, by
      rintro u (⟨ha, _⟩ | ⟨_, hf⟩) ⟨w, hw, hs⟩
      · cases ha
      · obtain ⟨t, ht, hut⟩ := (fromUser_iff _ _).mp hf
        rw [show ((swap "eve" named).headers.get "From".toList).bind Sub.parseNameAddr =
          some ⟨"sip:eve@10.0.0.7".toList, false, some "eve".toList, "10.0.0.7".toList, none, [], []⟩ by decide +kernel] at ht
        cases ht
        cases hut
        rw [sameName_iff] at hs
        rcases hw with hw | hw
        · rw [hu.1] at hw; cases hw; exact absurd hs (by decide +kernel)
        · rw [hu.2] at hw; cases hw; exact absurd hs (by decide +kernel)⟩)
  exact ⟨r, h1, h2.status⟩

/-- `C121_malformed`: no from-tag. -/
example : ∃ r, step cfg (run cfg init (callEvents [])).1 (.request 9 (swap "alice" "in1;to-tag=x2") (nfo "r0")) = ((run cfg init (callEvents [])).1, [.final 9 r]) ∧
    r.code = 400 := by
  obtain ⟨r, h1, h2, _⟩ := C121_malformed cfg (run cfg init (callEvents [])).1 9 (swap "alice" "in1;to-tag=x2") (nfo "r0") "in1;to-tag=x2".toList
    (swap_fine (Priv.hinv_of (by decide) (by decide +kernel)) (by decide +kernel) (by decide +kernel) (by decide +kernel)) (good_tag "r0" (by decide))
    ⟨rfl, no_limit (by decide +kernel), rfl⟩ rfl (swap_new (by decide +kernel) called_only) ((first_iff _ _ _).mpr (by decide +kernel))
    (by
      intro j hj
      rw [replacesOf_iff, show parseReplaces "in1;to-tag=x2".toList = none by decide +kernel] at hj
      cases hj)
  exact ⟨r, h1, h2.status⟩

/-! ## What goes wrong -/

/-- Nothing is replaced (RFC 3891 section 3): after the new call has been accepted the old one is still there, and no BYE was sent. -/
theorem C121_nothing_replaced :
    wire (run cfg (run cfg init (callEvents [])).1 [.request 9 (swap "alice" named) (nfo "r0"), .turn 1 (nfo "r1"), .turn 1 (nfo "r2"), .turn 1 (nfo "r3")]).2 =
      [(9, 100, "<sip:bob@10.0.0.2>", none), (9, 180, "<sip:bob@10.0.0.2>;tag=r1", none), (9, 200, "<sip:bob@10.0.0.2>;tag=r2", none)] ∧
    (run cfg init (callEvents [] ++ [.request 9 (swap "alice" named) (nfo "r0"), .turn 1 (nfo "r1"), .turn 1 (nfo "r2"), .turn 1 (nfo "r3")])).1.dialogs.dialogs.keys.length = 2 ∧
    ((run cfg init (callEvents [] ++ [.request 9 (swap "alice" named) (nfo "r0"), .turn 1 (nfo "r1"), .turn 1 (nfo "r2"), .turn 1 (nfo "r3")])).1.dialogs.get hers).isSome = true ∧
    (run cfg init (callEvents [] ++ [.request 9 (swap "alice" named) (nfo "r0"), .turn 1 (nfo "r1"), .turn 1 (nfo "r2"), .turn 1 (nfo "r3")])).2.all (fun
      | .provisional _ _ => true
      | .final _ _ => true
      | _ => false) = true := by decide +kernel

/-- Without authentication anyone who writes the name of one of the two into the From header may replace their call, and that is the name
of the daemon's own user: it is in its Contact. -/
theorem C121_anyone : ((step cfg (run cfg init (callEvents [])).1 (.request 9 (swap "bob" named) (nfo "r0"))).2.map fun
    | .provisional _ r => r.code
    | .final _ r => r.code
    | _ => 0) = [100] := by decide +kernel

end Siphon.Daemon
