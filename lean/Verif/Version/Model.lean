import Verif.Base.Text
import Verif.Base.Num
/-!
# The version of the protocol (sip-core, version.rs)

`SipVersion` has one value, so what can be read is whether a text names it; an error is `false`, its kind is not modelled.
-/
namespace Siphon.Version

/-- The blanks of `trim_matches`, version.rs 113. -/
def isBlank (c : Char) : Bool := c == ' ' || c == '\t'

/-- `str::trim_matches` with these. -/
def trimBlanks (s : Str) : Str := ((s.dropWhile isBlank).reverse.dropWhile isBlank).reverse

/-- version.rs 105-154 `SipVersion::parse`.  `get(..4)` counts bytes: it is the first four characters, or fails, or has a character that is not
ASCII and so is not `SIP/`. -/
def parse (input : Str) : Bool :=
  if input.any (fun c => isControl c && c != '\t') then false
  else
    let t := trimBlanks input
    if !(eqIgnoreCase (t.take 4) "SIP/".toList) then false
    else
      match splitOnce '.' (t.drop 4) with
      | none => false
      | some (a, b) =>
        if a.isEmpty || b.isEmpty || !a.all isDigit || !b.all isDigit then false
        else parseDec 65535 a == some 2 && parseDec 65535 b == some 0

end Siphon.Version
