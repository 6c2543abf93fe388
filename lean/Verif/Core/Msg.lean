import Verif.Core.Method
import Verif.Core.Headers
import Verif.Base.Utf8
/-!
# Requests and responses

Model of `crates/sip-core/src/msg.rs`.  A Request-URI is represented by its text
(`Uri::as_str`); the SIP version is always 2.0 (version.rs has one variant) and is left out.
-/
namespace Siphon

/-- msg.rs 270-274 `Request` (with 60-64 `RequestLine`). -/
structure Request where
  method : Method
  uri : Str
  headers : Headers
  body : Bytes
  deriving DecidableEq, Repr

/-- msg.rs 387-391 `Response` (with 133-137 `StatusLine`). -/
structure Response where
  code : Nat
  reason : Str
  headers : Headers
  body : Bytes
  deriving DecidableEq, Repr

/-- msg.rs 16 `MAX_BODY_SIZE`. -/
def MAX_MSG_BODY : Nat := 10 * 1024 * 1024
/-- msg.rs 15 `MAX_REASON_LENGTH`. -/
def MAX_REASON_LENGTH : Nat := 256

/-- msg.rs 18-24 `MessageError` (payloads dropped). -/
inductive MessageError | invalidStatusCode | reasonTooLong | invalidReason | bodyTooLarge
  deriving DecidableEq, Repr

/-- msg.rs 286-294 `Request::new`. -/
def Request.new (m : Method) (uri : Str) (hs : Headers) (body : Bytes) : Except MessageError Request :=
  if body.length > MAX_MSG_BODY then .error .bodyTooLarge
  else .ok { method := m, uri := uri, headers := hs, body := body }

/-- msg.rs 600-617 `validate_reason_phrase`. -/
def validateReason (r : Str) : Except MessageError Unit :=
  if utf8Len r > MAX_REASON_LENGTH then .error .reasonTooLong
  else if r.any isAsciiControl then .error .invalidReason
  else .ok ()

/-- msg.rs 172-186 `StatusLine::new` followed by 403-411 `Response::new`. -/
def Response.new (code : Nat) (reason : Str) (hs : Headers) (body : Bytes) : Except MessageError Response :=
  if !(100 ≤ code && code ≤ 699) then .error .invalidStatusCode
  else
    match validateReason reason with
    | .error e => .error e
    | .ok () =>
      if body.length > MAX_MSG_BODY then .error .bodyTooLarge
      else .ok { code := code, reason := reason, headers := hs, body := body }

end Siphon
