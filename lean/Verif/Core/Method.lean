import Verif.Base.Text
/-!
# SIP methods

Model of `crates/sip-core/src/method.rs`.
-/

namespace Siphon

/-- method.rs 56-88 `Method`. -/
inductive Method
  | invite | ack | bye | cancel | register | options | info | update | message | prack
  | refer | subscribe | notify | publish
  | unknown (token : Str)
  deriving DecidableEq, Repr

/-- method.rs 91-111 `Method::as_str`. -/
def Method.asStr : Method → Str
  | .invite => "INVITE".toList
  | .ack => "ACK".toList
  | .bye => "BYE".toList
  | .cancel => "CANCEL".toList
  | .register => "REGISTER".toList
  | .options => "OPTIONS".toList
  | .info => "INFO".toList
  | .update => "UPDATE".toList
  | .message => "MESSAGE".toList
  | .prack => "PRACK".toList
  | .refer => "REFER".toList
  | .subscribe => "SUBSCRIBE".toList
  | .notify => "NOTIFY".toList
  | .publish => "PUBLISH".toList
  | .unknown t => t

/-- method.rs 10-15 `MethodError` (payloads dropped). -/
inductive MethodError | empty | tooLong | controlChars | invalidChars
  deriving DecidableEq, Repr

/-- method.rs 7 `MAX_METHOD_LENGTH`. -/
def MAX_METHOD_LENGTH : Nat := 32

/-- method.rs 255-265: the characters accepted in an extension method. -/
def isMethodChar (c : Char) : Bool :=
  isAlnum c || c ∈ ['!', '%', '\'', '*', '+', '-', '.', '^', '_', '`', '|', '~']

/-- method.rs 233-268 `validate_method_token`. -/
def validateMethodToken (t : Str) : Except MethodError Unit :=
  if t.isEmpty then .error .empty
  else if utf8Len t > MAX_METHOD_LENGTH then .error .tooLong
  else if t.any isAsciiControl then .error .controlChars
  else if !t.all isMethodChar then .error .invalidChars
  else .ok ()

/-- method.rs 149-186 `Method::from_token`. -/
def Method.fromToken (t : Str) : Except MethodError Method :=
  if eqIgnoreCase t "INVITE".toList then .ok .invite
  else if eqIgnoreCase t "ACK".toList then .ok .ack
  else if eqIgnoreCase t "BYE".toList then .ok .bye
  else if eqIgnoreCase t "CANCEL".toList then .ok .cancel
  else if eqIgnoreCase t "REGISTER".toList then .ok .register
  else if eqIgnoreCase t "OPTIONS".toList then .ok .options
  else if eqIgnoreCase t "INFO".toList then .ok .info
  else if eqIgnoreCase t "UPDATE".toList then .ok .update
  else if eqIgnoreCase t "MESSAGE".toList then .ok .message
  else if eqIgnoreCase t "PRACK".toList then .ok .prack
  else if eqIgnoreCase t "REFER".toList then .ok .refer
  else if eqIgnoreCase t "SUBSCRIBE".toList then .ok .subscribe
  else if eqIgnoreCase t "NOTIFY".toList then .ok .notify
  else if eqIgnoreCase t "PUBLISH".toList then .ok .publish
  else match validateMethodToken t with
    | .error e => .error e
    | .ok () => .ok (.unknown (upper t))

end Siphon
