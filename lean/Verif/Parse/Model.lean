import Verif.Core.Msg
import Verif.Core.Uri
import Verif.Core.MaxForwards
import Verif.Transport.Framing
/-!
# Reading and writing messages

Model of `crates/sip-parse/src/lib.rs` (non-test part, lines 41-629).  A datagram is a list of bytes; `Option` is the
`Option` of the code.  The combinators of `nom` 7 that the start lines use (`take_while1`, `space1`, `tag_no_case`,
`character::complete::u16`, `rest`) are modelled from their documentation.
-/
namespace Siphon.Parse

open Siphon.Transport (findBlank)

/-- lib.rs 41 -/
def DEFAULT_MAX_MESSAGE_SIZE : Nat := 64 * 1024
/-- lib.rs 468 -/
def MAX_CONTENT_LENGTH : Nat := 64 * 1024 * 1024
/-- lib.rs 550 -/
def MAX_CSEQ_NUMBER : Nat := 2 ^ 31 - 1

/-! ## Library functions -/

/-- `std::str::from_utf8`. -/
def fromUtf8 (b : Bytes) : Option Str := ((ByteArray.mk b.toArray).utf8Decode?).map Array.toList

/-- `str::split("\r\n")`. -/
def splitCrlf : Str → List Str
  | [] => [[]]
  | [x] => [[x]]
  | x :: y :: s =>
    if x = '\r' ∧ y = '\n' then [] :: splitCrlf s
    else
      match splitCrlf (y :: s) with
      | [] => [[x]]
      | p :: ps => (x :: p) :: ps

/-- nom `take_while1`: the longest non-empty prefix, and the rest. -/
def takeWhile1 (p : Char → Bool) (s : Str) : Option (Str × Str) :=
  if (s.takeWhile p).isEmpty then none else some (s.takeWhile p, s.dropWhile p)

/-- nom `space1`: spaces and tabs, at least one; the rest. -/
def space1 (s : Str) : Option Str := (takeWhile1 (fun c => c == ' ' || c == '\t') s).map (·.2)

/-- nom `tag_no_case` for an ASCII tag without the letter `k`. -/
def tagNoCase (t s : Str) : Option Str :=
  if eqIgnoreCase (s.take t.length) t then some (s.drop t.length) else none

/-- nom `character::complete::u16`: at least one digit, all digits read, no overflow. -/
def nomU16 (s : Str) : Option (Nat × Str) :=
  match takeWhile1 isDigit s with
  | none => none
  | some (ds, rest) =>
    match parseDecDigits 65535 ds 0 with
    | none => none
    | some n => some (n, rest)

/-! ## Start lines -/

/-- lib.rs 517-536 `is_token_char`. -/
def isTokenChar (c : Char) : Bool :=
  isAlnum c || ['!', '#', '$', '%', '&', '\'', '*', '+', '-', '.', '^', '_', '`', '|', '~'].contains c

/-- lib.rs 273-295 `parse_request_line`; the URI is kept as its text (`Uri::as_str`). -/
def parseRequestLine (line : Str) : Option (Method × Str) :=
  match takeWhile1 isTokenChar (trim line) with
  | none => none
  | some (meth, r) =>
  match space1 r with
  | none => none
  | some r =>
  match takeWhile1 (fun c => !isWs c) r with
  | none => none
  | some (uri, r) =>
  match space1 r with
  | none => none
  | some version =>
    if !eqIgnoreCase version "SIP/2.0".toList then none
    else
      match Method.fromToken meth with
      | .error _ => none
      | .ok m =>
        match Uri.parse uri with
        | none => none
        | some u => some (m, u.asStr)

/-- lib.rs 298-316 `parse_status_line` up to `StatusLine::new`: the code and the reason. -/
def parseStatusLine (line : Str) : Option (Nat × Str) :=
  match tagNoCase "SIP/2.0".toList (trim line) with
  | none => none
  | some r =>
  match space1 r with
  | none => none
  | some r =>
  match nomU16 r with
  | none => none
  | some (code, r) =>
  match space1 r with
  | none => none
  | some reason => some (code, trim reason)

/-! ## Headers -/

/-- lib.rs 332-344 `split_head_body`.  The search for the blank line is the one of the stream transport. -/
def splitHeadBody (d : Bytes) : Option (Str × Bytes) :=
  match findBlank d with
  | some pos => (fromUtf8 (d.take pos)).map (fun h => (h, d.drop (pos + 4)))
  | none => (fromUtf8 d).map (fun h => (h, []))

/-- lib.rs 375-398 `canonical_header_name`. -/
def canonicalHeaderName (name : Str) : Str :=
  let l := lower name
  if l = "i".toList then "Call-ID".toList
  else if l = "f".toList then "From".toList
  else if l = "t".toList then "To".toList
  else if l = "m".toList then "Contact".toList
  else if l = "l".toList then "Content-Length".toList
  else if l = "s".toList then "Subject".toList
  else if l = "k".toList then "Supported".toList
  else if l = "o".toList then "Event".toList
  else if l = "e".toList then "Content-Encoding".toList
  else if l = "c".toList then "Content-Type".toList
  else if l = "v".toList then "Via".toList
  else if l = "r".toList then "Refer-To".toList
  else if l = "b".toList then "Referred-By".toList
  else if l = "d".toList then "Request-Disposition".toList
  else if l = "x".toList then "Session-Expires".toList
  else if l = "a".toList then "Accept-Contact".toList
  else if l = "u".toList then "Allow-Events".toList
  else name

/-- lib.rs 347-373 `parse_headers`; the accumulator is the collection built so far. -/
def parseHeaders : List Str → Headers → Option Headers
  | [], hs => some hs
  | line :: ls, hs =>
    if line.isEmpty then parseHeaders ls hs
    else if [' '].isPrefixOf line || ['\t'].isPrefixOf line then none
    else
      match splitOnce ':' line with
      | none => none
      | some (n, v) =>
        match hs.push (canonicalHeaderName (trim n)) (trim v) with
        | .error _ => none
        | .ok hs => parseHeaders ls hs

/-- lib.rs 324-329 `header`. -/
def header (hs : Headers) (name : Str) : Option Str :=
  match hs.get name with
  | some v => some v
  | none => hs.get (canonicalHeaderName name)

/-! ## Content-Length and body -/

/-- lib.rs 470-473 `ContentLengthError`. -/
inductive LengthError | invalid | oversized
  deriving DecidableEq, Repr

/-- lib.rs 479-500 `parse_content_length_detailed` (`usize` has 64 bits). -/
def parseContentLength (v : Str) : Except LengthError Nat :=
  match parseDec (2 ^ 64 - 1) (trim v) with
  | none => .error .invalid
  | some n => if n > MAX_CONTENT_LENGTH then .error .oversized else .ok n

/-- lib.rs 421-439: several Content-Length values; the outer `none` is `return None`. -/
def agreedLength : Option Nat → List Str → Option (Option Nat)
  | first, [] => some first
  | first, v :: vs =>
    match parseContentLength v with
    | .ok len =>
      match first with
      | some old => if old ≠ len then none else agreedLength (some old) vs
      | none => agreedLength (some len) vs
    | .error .oversized => none
    | .error .invalid => agreedLength first vs

/-- lib.rs 407-446 `extract_body`. -/
def extractBody (rest : Bytes) (hs : Headers) : Option Bytes :=
  let declared : Option Nat :=
    match hs.getAll "Content-Length".toList with
    | [] => some rest.length
    | [v] =>
      match parseContentLength v with
      | .ok n => some n
      | .error .oversized => none
      | .error .invalid => some rest.length
    | vs =>
      match agreedLength none vs with
      | none => none
      | some (some n) => some n
      | some none => some rest.length
  match declared with
  | none => none
  | some n => if n > rest.length then none else some (rest.take n)

/-- lib.rs 448-453 `extract_body_strict`. -/
def extractBodyStrict (rest : Bytes) (declared : Nat) : Option Bytes :=
  if declared ≠ rest.length then none else some rest

/-- lib.rs 502-515, the loop of `strict_content_length`. -/
def strictLength : Option Nat → List Str → Option (Option Nat)
  | len, [] => some len
  | len, v :: vs =>
    match parseContentLength v with
    | .error _ => none
    | .ok n =>
      match len with
      | some old => if old ≠ n then none else strictLength (some old) vs
      | none => strictLength (some n) vs

/-- lib.rs 115-124 (and 179-188): the declared length in strict mode; without a Content-Length the body must be
empty. -/
def declaredStrict (rest : Bytes) (hs : Headers) : Option Nat :=
  match strictLength none (hs.getAll "Content-Length".toList) with
  | none => none
  | some (some n) => some n
  | some none => if rest.isEmpty then some 0 else none

/-! ## Checks -/

/-- lib.rs 555-575 `parse_and_validate_cseq`. -/
def parseCseq (v : Str) : Option (Nat × Str) :=
  match splitWhitespace v with
  | [num, meth] =>
    if num.isEmpty || !num.all isDigit then none
    else
      match parseDec (2 ^ 64 - 1) num with
      | none => none
      | some n => if n = 0 ∨ n > MAX_CSEQ_NUMBER then none else some (n, meth)
  | _ => none

/-- lib.rs 580-587 `cseq_matches`. -/
def cseqMatches (hs : Headers) (m : Method) : Option Bool :=
  match hs.get "CSeq".toList with
  | none => some true
  | some v =>
    match parseCseq v with
    | none => none
    | some (_, tok) => some (eqIgnoreCase m.asStr tok)

/-- lib.rs 592-597 `validate_response_cseq`. -/
def validateResponseCseq (hs : Headers) : Bool :=
  match hs.get "CSeq".toList with
  | some v => (parseCseq v).isSome
  | none => true

/-- lib.rs 608 `SINGLETON_HEADERS`. -/
def SINGLETON_HEADERS : List Str :=
  ["Call-ID".toList, "CSeq".toList, "From".toList, "To".toList, "Max-Forwards".toList]

/-- lib.rs 611-615 `singleton_headers_unique`. -/
def singletonUnique (hs : Headers) : Bool := SINGLETON_HEADERS.all (fun n => hs.count n ≤ 1)

/-- lib.rs 70-73: the branch of a Via value. -/
def viaBranch (via : Str) : Option Str := (splitChar ';' via).findSome? (fun p => stripPrefix "branch=".toList (trim p))

/-- lib.rs 69-78 (and 104-113): the topmost Via has no branch, or a valid one. -/
def branchOk (hs : Headers) : Bool :=
  match hs.get "Via".toList with
  | none => true
  | some via =>
    match viaBranch via with
    | none => true
    | some b => isValidBranch (trim b)

/-! ## Messages -/

/-- lib.rs 55-63 (90-98, 137-145, 162-170): size limit, head and body, the trimmed first line and the header lines. -/
def splitMessage (d : Bytes) (max : Nat) : Option (Str × List Str × Bytes) :=
  if d.length > max then none
  else
    match splitHeadBody d with
    | none => none
    | some (head, rest) =>
      match splitCrlf head with
      | [] => none
      | l :: ls => if (trim l).isEmpty then none else some (trim l, ls, rest)

/-- lib.rs 54-86 `parse_request_with_limit`. -/
def parseRequestWithLimit (d : Bytes) (max : Nat) : Option Request :=
  match splitMessage d max with
  | none => none
  | some (first, lines, rest) =>
  match parseRequestLine first with
  | none => none
  | some (m, uri) =>
  match parseHeaders lines Headers.empty with
  | none => none
  | some hs =>
  if !singletonUnique hs then none
  else if !branchOk hs then none
  else
  match extractBody rest hs with
  | none => none
  | some body =>
  match cseqMatches hs m with
  | none => none
  | some false => none
  | some true => (Request.new m uri hs body).toOption

/-- lib.rs 44-46 `parse_request`. -/
def parseRequest (d : Bytes) : Option Request := parseRequestWithLimit d DEFAULT_MAX_MESSAGE_SIZE

/-- lib.rs 89-133 `parse_request_with_limit_strict`. -/
def parseRequestStrictWithLimit (d : Bytes) (max : Nat) : Option Request :=
  match splitMessage d max with
  | none => none
  | some (first, lines, rest) =>
  match parseRequestLine first with
  | none => none
  | some (m, uri) =>
  match parseHeaders lines Headers.empty with
  | none => none
  | some hs =>
  if !singletonUnique hs then none
  else if !branchOk hs then none
  else
  match declaredStrict rest hs with
  | none => none
  | some n =>
  match extractBodyStrict rest n with
  | none => none
  | some body =>
  match cseqMatches hs m with
  | none => none
  | some false => none
  | some true => (Request.new m uri hs body).toOption

/-- lib.rs 49-51 `parse_request_strict`. -/
def parseRequestStrict (d : Bytes) : Option Request := parseRequestStrictWithLimit d DEFAULT_MAX_MESSAGE_SIZE

/-- lib.rs 136-158 `parse_response`. -/
def parseResponse (d : Bytes) : Option Response :=
  match splitMessage d DEFAULT_MAX_MESSAGE_SIZE with
  | none => none
  | some (first, lines, rest) =>
  match parseStatusLine first with
  | none => none
  | some (code, reason) =>
  match parseHeaders lines Headers.empty with
  | none => none
  | some hs =>
  if !singletonUnique hs then none
  else if !validateResponseCseq hs then none
  else
  match extractBody rest hs with
  | none => none
  | some body => (Response.new code reason hs body).toOption

/-- lib.rs 161-193 `parse_response_strict`. -/
def parseResponseStrict (d : Bytes) : Option Response :=
  match splitMessage d DEFAULT_MAX_MESSAGE_SIZE with
  | none => none
  | some (first, lines, rest) =>
  match parseStatusLine first with
  | none => none
  | some (code, reason) =>
  match parseHeaders lines Headers.empty with
  | none => none
  | some hs =>
  if !singletonUnique hs then none
  else if !validateResponseCseq hs then none
  else
  match declaredStrict rest hs with
  | none => none
  | some n =>
  match extractBodyStrict rest n with
  | none => none
  | some body => (Response.new code reason hs body).toOption

/-! ## Writing -/

/-- lib.rs 617-629 `canonical_name`. -/
def canonicalName (n : Str) : Str :=
  if eqIgnoreCase n "Via".toList then "Via".toList
  else if eqIgnoreCase n "Contact".toList then "Contact".toList
  else if eqIgnoreCase n "Route".toList then "Route".toList
  else if eqIgnoreCase n "Record-Route".toList then "Record-Route".toList
  else n

/-- `"\r\n"`. -/
def crlf : Str := ['\r', '\n']

/-- lib.rs 211-215, 252-256: the headers the serializers leave out. -/
def isLengthName (n : Str) : Bool := eqIgnoreCase n "Content-Length".toList || eqIgnoreCase n "l".toList

/-- lib.rs 209-222, the loop over the headers. -/
def writeReqHeaders : List Header → Str
  | [] => []
  | h :: hs =>
    if isLengthName h.name then writeReqHeaders hs
    else canonicalName h.name ++ ": ".toList ++ trim h.value ++ crlf ++ writeReqHeaders hs

/-- lib.rs 196-236 `serialize_request`. -/
def serializeRequest (r : Request) : Bytes :=
  let head := r.method.asStr ++ [' '] ++ r.uri ++ [' '] ++ "SIP/2.0".toList ++ crlf
    ++ writeReqHeaders r.headers.inner
    ++ (if r.headers.inner.any (·.nameEq "Max-Forwards".toList)
        then [] else "Max-Forwards: 70".toList ++ crlf)
    ++ "Content-Length: ".toList ++ showNat r.body.length ++ crlf ++ crlf
  utf8 head ++ r.body

/-- lib.rs 251-259, the loop over the headers. -/
def writeRespHeaders : List Header → Str
  | [] => []
  | h :: hs =>
    if isLengthName h.name then writeRespHeaders hs
    else h.name ++ ": ".toList ++ h.value ++ crlf ++ writeRespHeaders hs

/-- lib.rs 239-269 `serialize_response`. -/
def serializeResponse (r : Response) : Bytes :=
  let head := "SIP/2.0".toList ++ [' '] ++ showNat r.code ++ [' '] ++ r.reason ++ crlf
    ++ writeRespHeaders r.headers.inner
    ++ "Content-Length: ".toList ++ showNat r.body.length ++ crlf ++ crlf
  utf8 head ++ r.body

end Siphon.Parse
