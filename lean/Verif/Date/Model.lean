import Verif.Base.Text
import Verif.Base.Num
import Verif.Core.Headers
/-!
# The Date header (sip-core, date.rs; sip-parse, header_values.rs)

Times are integers (seconds; `SystemTime` has a finer grain, which does not matter here).  The crate httpdate, which is not part of the
repository, is the parameter `H`: how it reads a date and how it writes one.  An error is `none`.
-/
namespace Siphon.DateHdr

/-- httpdate: `parse_http_date` and `fmt_http_date`. -/
structure HttpDate where
  read : Str → Option Int
  write : Int → Str

/-- date.rs 48-51 `DateHeader`. -/
structure Header where
  raw : Str
  timestamp : Option Int
  deriving DecidableEq, Repr

/-- date.rs 8. -/
def MAX_DATE_HEADER_LENGTH : Nat := 128

/-- date.rs 144 `VALID_DAYS`. -/
def days : List Str := ["Mon", "Tue", "Wed", "Thu", "Fri", "Sat", "Sun"].map String.toList

/-- date.rs 147-149 `VALID_MONTHS`. -/
def months : List Str :=
  ["Jan", "Feb", "Mar", "Apr", "May", "Jun", "Jul", "Aug", "Sep", "Oct", "Nov", "Dec"].map String.toList

/-- `trim_end_matches(',')`. -/
def dropCommas (s : Str) : Str := (s.reverse.dropWhile (· == ',')).reverse

/-- date.rs 173-179. -/
def dayName (p : Str) : Bool := p.getLast? == some ',' && days.contains (dropCommas p)

/-- A number of `len` digits that `str::parse` reads into a type with this greatest value, within bounds (date.rs 182-191, 199-209,
217-228). -/
def number (len max lo hi : Nat) (p : Str) : Bool :=
  utf8Len p == len && p.all isDigit &&
    (match parseDec max p with
     | some n => lo ≤ n && n ≤ hi
     | none => false)

/-- date.rs 212-229. -/
def time (p : Str) : Bool :=
  match splitChar ':' p with
  | [h, m, s] => number 2 255 0 23 h && number 2 255 0 59 m && number 2 255 0 59 s
  | _ => false

/-- date.rs 232-234. -/
def zone (p : Str) : Bool := !(utf8Len p < 2) && p.all isAlpha

/-- date.rs 163-237 `is_valid_date_format`. -/
def validFormat (s : Str) : Bool :=
  match splitWhitespace s with
  | a :: d :: m :: y :: t :: z :: _ =>
    dayName a && number 2 255 1 31 d && months.contains m && number 4 65535 1970 2100 y && time t && zone z
  | _ => false

/-- date.rs 69-97 `DateHeader::new`. -/
def Header.new (H : HttpDate) (raw : Str) : Option Header :=
  if utf8Len raw > MAX_DATE_HEADER_LENGTH then none
  else if raw.any isAsciiControl then none
  else if !validFormat raw then none
  else some { raw := raw, timestamp := H.read raw }

/-- date.rs 111-118 `from_timestamp` (100-108 `now`, with the time that the clock shows). -/
def Header.ofTime (H : HttpDate) (t : Int) : Header := { raw := H.write t, timestamp := some t }

/-- date.rs 131-134 `is_past`, when the clock shows `now`: `duration_since` is `Ok` for a time that is not later. -/
def Header.isPast (h : Header) (now : Int) : Option Bool := h.timestamp.bind (fun t => if t ≤ now then some true else none)

/-- date.rs 137-140 `is_future`. -/
def Header.isFuture (h : Header) (now : Int) : Option Bool := h.timestamp.bind (fun t => if now ≤ t then some true else none)

/-- header_values.rs 144-149 `parse_date_header`, when the clock shows `now`. -/
def parseDate (H : HttpDate) (now : Int) (v : Str) : Header := (Header.new H v).getD (Header.ofTime H now)

end Siphon.DateHdr
