import Verif.Bridge.Spec
/-! Concrete messages for the witnesses about the back-to-back user agent. -/
namespace Siphon.Bridge.Cases
open Siphon.Dlg (Mgr)

def hd (l : List (String × String)) : Headers := ⟨l.map (fun p => ⟨p.1.toList, p.2.toList⟩)⟩
def me : Cfg := ⟨"sip:pbx@10.0.0.9:5060".toList, "siphon".toList⟩
/-- the caller's INVITE -/
def inv : Request := ⟨.invite, "sip:bob@example.org".toList, hd [("Via", "SIP/2.0/UDP 10.0.0.1;branch=z9hG4bK1"),
  ("From", "<sip:alice@10.0.0.1>;tag=A"), ("To", "<sip:bob@example.org>"), ("Call-ID", "in1"), ("CSeq", "7 INVITE"),
  ("Contact", "<sip:alice@10.0.0.1:5070>")], []⟩
/-- the callee is registered -/
def look : Lookup := fun k => if k = "sip:bob@example.org".toList then ["sip:bob@10.0.0.2:5080".toList] else []
/-- the callee is registered with a host name -/
def named : Lookup := fun k => if k = "sip:bob@example.org".toList then ["sip:bob@phone.example.org".toList] else []
def fr : Fresh := ⟨"z9hG4bKx".toList, "out1".toList, "B".toList, "T".toList⟩
/-- an answer of the callee -/
def resp (c : Nat) (cseq to : String) : Response := ⟨c, "R".toList, hd [("Via", "SIP/2.0/UDP placeholder;branch=z9hG4bKx"),
  ("From", "<sip:alice@10.0.0.1>;tag=B"), ("To", to), ("Call-ID", "out1"), ("CSeq", cseq), ("Contact", "<sip:bob@10.0.0.2:5080>"),
  ("Server", "phone"), ("Record-Route", "<sip:p.example.org;lr>")], []⟩
def ringing : Response := resp 180 "1 INVITE" "<sip:bob@10.0.0.2:5080>;tag=C"
def ok : Response := resp 200 "1 INVITE" "<sip:bob@10.0.0.2:5080>;tag=C"
def busy : Response := resp 486 "1 INVITE" "<sip:bob@10.0.0.2:5080>;tag=C"
/-- a request of the caller within the call, or its CANCEL -/
def within (m : Method) (cid frm to cseq : String) : Request := ⟨m, "sip:pbx@10.0.0.9:5060".toList, hd [("Via", "SIP/2.0/UDP 10.0.0.1;branch=z9hG4bK2"),
  ("From", frm), ("To", to), ("Call-ID", cid), ("CSeq", cseq)], []⟩
def call : Ev := .invite inv look fr 0 0
/-- the codes of the answers to a transaction -/
def codes (t : Nat) : List Out → List Nat
  | [] => []
  | .reply t' r :: os => if t' = t then r.code :: codes t os else codes t os
  | _ :: os => codes t os
/-- the requests sent to other parties: the method and the port -/
def sent : List Out → List (Method × Nat)
  | [] => []
  | .tcp a r :: os => (r.method, a.2) :: sent os
  | .udp a r :: os => (r.method, a.2) :: sent os
  | _ :: os => sent os

end Siphon.Bridge.Cases
