import Verif.Dialog.Prack
import Verif.Dialog.Spec
/-!
# What the properties of reliable provisional responses are about
-/
namespace Siphon.Dlg.Spec
open TextSpec HdrSpec

/-- One of the fourteen methods with a name of their own. -/
def Known (m : Method) : Prop := ∀ t, m ≠ .unknown t

/-- An RAck value: two 32-bit numbers and the name of a method, in any case, with space between. -/
def RAckText (v : Str) (r : RAck) : Prop :=
  ∃ a b w, Words v [a, b, w] ∧ Decimal a r.rseq ∧ r.rseq < 2 ^ 32 ∧ Decimal b r.cseq ∧ r.cseq < 2 ^ 32 ∧
    Known r.method ∧ SameName w r.method.asStr

/-- The reliable provisional responses registered in a history: dialog, RSeq, CSeq, method. -/
def Registered : List POp → List (Str × RAck)
  | [] => []
  | .register d _ r c m _ :: ops => (d, RAck.mk r c m) :: Registered ops
  | _ :: ops => Registered ops

/-- The PRACKs accepted in a history, in order. -/
inductive Acks : Validator → List POp → List (Str × RAck) → Prop
  | nil {s} : Acks s [] []
  | take {s s' d now hs r ops l} : s.prack d now hs = (.ok r, s') → Acks s' ops l →
      Acks s (.prack d now hs :: ops) ((d, r) :: l)
  | refuse {s s' d now hs e ops l} : s.prack d now hs = (.error e, s') → Acks s' ops l →
      Acks s (.prack d now hs :: ops) l
  | other {s o ops l} : (∀ d now hs, o ≠ .prack d now hs) → Acks (s.step o) ops l → Acks s (o :: ops) l

/-- What several tasks do to the validator, at the granularity of its locks, in any order. -/
inductive Atom
  | retain (d : Str) (now : Nat)
  | push (d : Str) (now : Nat) (r : RAck) (code : Nat)
  | check (d : Str) (r : RAck)
  | removeDialog (d : Str)
  | removePracked (d : Str) (rseq : Nat)

def Atom.run (t : Tbl Str (List Pending)) : Atom → Tbl Str (List Pending)
  | .retain d now => retainAtom t d now
  | .push d now r code => pushAtom t d (Pending.mk r.rseq r.cseq r.method code false now)
  | .check d r => (checkAtom t d r).2
  | .removeDialog d => t.remove d
  | .removePracked d rseq => Siphon.Dlg.removePracked t d rseq

/-- The registrations in an interleaving. -/
def Pushed : List Atom → List (Str × RAck)
  | [] => []
  | .push d _ r _ :: l => (d, r) :: Pushed l
  | _ :: l => Pushed l

/-- The acceptances in an interleaving. -/
inductive Accepted : Tbl Str (List Pending) → List Atom → List (Str × RAck) → Prop
  | nil {t} : Accepted t [] []
  | take {t d r l as} : (checkAtom t d r).1 = .ok r → Accepted (checkAtom t d r).2 as l →
      Accepted t (.check d r :: as) ((d, r) :: l)
  | refuse {t d r e l as} : (checkAtom t d r).1 = .error e → Accepted (checkAtom t d r).2 as l →
      Accepted t (.check d r :: as) l
  | other {t a l as} : (∀ d r, a ≠ .check d r) → Accepted (a.run t) as l → Accepted t (a :: as) l

/-- The operation leaves the provisional response `rseq` of dialog `d`, sent at `t0`, alone: it comes within 300 s, does
not reuse the RSeq in this dialog and does not remove the dialog. -/
def Leaves (d : Str) (t0 rseq : Nat) : POp → Prop
  | .register d' now r _ _ _ => now ≤ t0 + 300 * 10 ^ 9 ∧ ¬ (d' = d ∧ r = rseq)
  | .prack _ now _ => now ≤ t0 + 300 * 10 ^ 9
  | .getPending _ now => now ≤ t0 + 300 * 10 ^ 9
  | .removeDialog d' => d' ≠ d
  | .removePracked _ _ => True

/-- How often a reliable response was registered for the dialog. -/
def regsOf (d : Str) (ops : List POp) : Nat := ((Registered ops).filter (fun x => decide (x.1 = d))).length

/-- The numbers an RSeq manager handed out for a dialog in a history. -/
inductive Given : Tbl DialogId Nat → List ROp → DialogId → List Nat → Prop
  | nil {t d} : Given t [] d []
  | mine {t d n r t' ops ns} : nextRSeq t d n = (r, t') → Given t' ops d ns → Given t (.next d n :: ops) d (r :: ns)
  | other {t d o ops ns} : (∀ n, o ≠ .next d n) → Given (rstep t o) ops d ns → Given t (o :: ops) d ns

end Siphon.Dlg.Spec
