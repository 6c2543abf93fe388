import Verif.Base.Text
/-!
# The Subject header (sip-core, subject.rs)

A header is its text; an error is `none`: its kind is not modelled.
-/
namespace Siphon.Subject

/-- subject.rs 37. -/
def MAX_SUBJECT_LENGTH : Nat := 256

/-- `char::is_ascii_graphic`. -/
def isGraphic (c : Char) : Bool := 33 ≤ c.toNat && c.toNat ≤ 126

/-- subject.rs 67-97 `validate_subject`. -/
def valid (s : Str) : Bool :=
  if s.isEmpty || s.all (fun c => c == ' ' || c == '\t') then false
  else if utf8Len s > MAX_SUBJECT_LENGTH then false
  else if !s.all (fun c => c == '\t' || c == ' ' || isGraphic c) then false
  else if s.any (fun c => isControl c && c != '\t') then false
  else true

/-- subject.rs 153-158, 193-195 `new`, `parse`; `value` and `Display` give the text back. -/
def parse (s : Str) : Option Str := if valid s then some s else none

end Siphon.Subject
