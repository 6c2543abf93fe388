import Verif.Reason.Model
import Verif.Base.TextSpec
import Verif.Core.HeadersSpec
/-!
# The Reason header: what a text says (RFC 3326)

Nothing here uses the functions that read or write the header.
-/
namespace Siphon.Reason.Spec
open TextSpec HdrSpec

/-- A text of 1 to `max` bytes without control characters. -/
def Plain (max : Nat) (s : Str) : Prop := s ≠ [] ∧ utf8Len s ≤ max ∧ ∀ c ∈ s, isAsciiControl c = false

/-- A parameter value. -/
def GoodValue (s : Str) : Prop := utf8Len s ≤ 256 ∧ ∀ c ∈ s, isAsciiControl c = false

/-- How a protocol is written: `SIP`, `Q.850` and `SDP` in any case are those, others are kept. -/
inductive Canonical : Str → Str → Prop
  | sip {p} : SameName p "SIP".toList → Canonical p "SIP".toList
  | q850 {p} : SameName p "Q.850".toList → Canonical p "Q.850".toList
  | sdp {p} : SameName p "SDP".toList → Canonical p "SDP".toList
  | other {p} : ¬ SameName p "SIP".toList → ¬ SameName p "Q.850".toList → ¬ SameName p "SDP".toList → Canonical p p

/-- The text inside quotes, and what it stands for: a backslash stands for the character after it. -/
inductive Unescapes : Str → Str → Prop
  | nil : Unescapes [] []
  | plain {c s t} : c ≠ '\\' → isAsciiControl c = false → Unescapes s t → Unescapes (c :: s) (c :: t)
  | escaped {c s t} : Unescapes s t → Unescapes ('\\' :: c :: s) (c :: t)

/-- A value as it is written, and what it stands for. -/
inductive Value : Str → Str → Prop
  | quoted {q t} : Unescapes q t → Value ('"' :: q ++ ['"']) t
  | plain {r} : (∀ q, r ≠ '"' :: q ++ ['"']) → Value r r

/-- A parameter: a name (in small letters), and a value or none. -/
inductive Item : Str → Str × Option Str → Prop
  | flag {p} : '=' ∉ p → Plain 64 (lower p) → Item p (lower p, none)
  | value {k w n r t} : '=' ∉ k → Strips isWs k n → Strips isWs w r → Value r t → Plain 64 (lower n) → GoodValue t →
      Item (k ++ '=' :: w) (lower n, some t)

/-- The parameters of a list of pieces; blank pieces say nothing. -/
inductive Items : List Str → List (Str × Option Str) → Prop
  | nil : Items [] []
  | blank {s ss l} : Strips isWs s [] → Items ss l → Items (s :: ss) l
  | item {s p x ss l} : Strips isWs s p → p ≠ [] → Item p x → Items ss l → Items (s :: ss) (x :: l)

/-- `m` has these entries, in the order of their names; no name is set twice. -/
def TableOf (l m : List (Str × Option Str)) : Prop :=
  m.Pairwise (fun a b => a.1 < b.1) ∧ (l.map (·.1)).Nodup ∧ ∀ x, x ∈ m ↔ x ∈ l

/-- What a Reason value says. -/
structure Reads (v : Str) (h : Header) : Prop where
  short : utf8Len v ≤ 1024
  parts : ∃ p proto ps l, Pieces ';' v (p :: ps) ∧ Strips isWs p proto ∧ Plain 32 proto ∧ Canonical proto h.protocol ∧
    Items ps l ∧ l.length ≤ 20 ∧ TableOf l h.params

/-- The value is written in quotes. -/
def InQuotes (k v : Str) : Prop := k = "text".toList ∨ ∃ c ∈ v, isWs c = true ∨ c = ';'

/-- A parameter that can be read back. -/
def Safe (k : Str) (v : Option Str) : Prop :=
  Plain 64 k ∧ lower k = k ∧ ';' ∉ k ∧ '=' ∉ k ∧ Strips isWs k k ∧
    ∀ t, v = some t → GoodValue t ∧ ';' ∉ t ∧ (InQuotes k t → '\\' ∉ t) ∧ (¬ InQuotes k t → ∀ q, t ≠ '"' :: q ++ ['"'])

/-- The reason phrases of RFC 3261 (21) and of the extensions that the header uses. -/
def phrases : List (Nat × String) :=
  [(100, "Trying"), (180, "Ringing"), (181, "Call Is Being Forwarded"), (182, "Queued"), (183, "Session Progress"),
   (200, "OK"), (202, "Accepted"), (300, "Multiple Choices"), (301, "Moved Permanently"), (302, "Moved Temporarily"),
   (305, "Use Proxy"), (380, "Alternative Service"), (400, "Bad Request"), (401, "Unauthorized"),
   (402, "Payment Required"), (403, "Forbidden"), (404, "Not Found"), (405, "Method Not Allowed"),
   (406, "Not Acceptable"), (407, "Proxy Authentication Required"), (408, "Request Timeout"), (410, "Gone"),
   (413, "Request Entity Too Large"), (414, "Request-URI Too Long"), (415, "Unsupported Media Type"),
   (416, "Unsupported URI Scheme"), (420, "Bad Extension"), (421, "Extension Required"), (423, "Interval Too Brief"),
   (480, "Temporarily Unavailable"), (481, "Call/Transaction Does Not Exist"), (482, "Loop Detected"),
   (483, "Too Many Hops"), (484, "Address Incomplete"), (485, "Ambiguous"), (486, "Busy Here"),
   (487, "Request Terminated"), (488, "Not Acceptable Here"), (491, "Request Pending"), (493, "Undecipherable"),
   (500, "Server Internal Error"), (501, "Not Implemented"), (502, "Bad Gateway"), (503, "Service Unavailable"),
   (504, "Server Time-out"), (505, "Version Not Supported"), (513, "Message Too Large"), (600, "Busy Everywhere"),
   (603, "Decline"), (604, "Does Not Exist Anywhere"), (606, "Not Acceptable")]

/-- Cause numbers of ITU-T Q.850. -/
def causes : List (Nat × String) :=
  [(1, "Unallocated Number"), (2, "No Route to Transit Network"), (3, "No Route to Destination"),
   (16, "Normal Call Clearing"), (17, "User Busy"), (18, "No User Responding"), (19, "No Answer"),
   (20, "Subscriber Absent"), (21, "Call Rejected"), (22, "Number Changed"), (27, "Destination Out of Order"),
   (28, "Invalid Number Format"), (29, "Facility Rejected"), (31, "Normal Unspecified"), (34, "No Circuit Available"),
   (38, "Network Out of Order"), (41, "Temporary Failure"), (42, "Switching Equipment Congestion"),
   (47, "Resource Unavailable"), (55, "Incoming Calls Barred"), (57, "Bearer Capability Not Authorized"),
   (58, "Bearer Capability Not Available"), (63, "Service Not Available"), (65, "Bearer Capability Not Implemented"),
   (79, "Service Not Implemented"), (87, "User Not Member of CUG"), (88, "Incompatible Destination"),
   (102, "Recovery on Timer Expiry"), (111, "Protocol Error"), (127, "Interworking Unspecified")]

end Siphon.Reason.Spec
