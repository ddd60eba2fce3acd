import Verif.Model.TraceSrv

/-! What trace clients may expect: small definitions for C70, C71 and C72. -/

set_option autoImplicit false

namespace Nfqlb.Spec.TSrv

open Nfqlb Nfqlb.TraceSrv

/-- The states after a sequence of steps that each meet `G`. -/
inductive Hist (G : St → Ev → Prop) : St → Prop
  | start : Hist G TraceSrv.start
  | step {s s' : St} (e : Ev) : Hist G s → G s e → TraceSrv.step s e = .ok s' → Hist G s'

/-- Anything may happen. -/
def Any : St → Ev → Prop := fun _ _ => True

/-- Clients end only while the server waits for that: it has accepted them, told them so, and reads. -/
def Polite (s : St) : Ev → Prop
  | .leave c => (∃ cd, s.file = .conn c cd) ∧ s.pc = .reading
  | _ => True

/-- No other thread opens anything between the two calls that close the descriptor of the connection. -/
def Quiet (s : St) : Ev → Prop
  | .openFd _ _ => s.pc ≠ .close
  | _ => True

/-- Client `c` was accepted and got the announcement, and is still there. -/
def Served (s : St) (c : Nat) : Prop := (∃ cd, s.file = .conn c cd) ∧ c ∉ s.gone ∧ (s.pc = .ignore ∨ s.pc = .reading)

/-- What is written by other threads, of what is in `mask`. -/
def lines (mask : Nat) : List Ev → List (List Char)
  | [] => []
  | .write bit text :: es => if mask.testBit bit then text :: lines mask es else lines mask es
  | .late text :: es => text :: lines mask es
  | _ :: es => lines mask es

/-- No client changes the mask. -/
def keepsMask : Ev → Prop
  | .setMask _ => False
  | _ => True

/-- Client `c` does not end. -/
def stays (c : Nat) : Ev → Prop
  | .leave d => d ≠ c
  | _ => True

end Nfqlb.Spec.TSrv
