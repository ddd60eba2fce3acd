import Verif.Model.Log
import Verif.Spec.TraceSrv

/-! What is to be logged: small definitions for C98. -/

set_option autoImplicit false

namespace Nfqlb.Spec.Log

open Nfqlb Nfqlb.Log

/-- The messages with a severity up to the level of the moment, in order. -/
def logged : Int → List Ev → List (List Char)
  | _, [] => []
  | _, .setLevel n :: es => logged n es
  | level, .say severity text :: es => if severity ≤ level then text :: logged level es else logged level es
  | level, .base _ :: es => logged level es
  | level, .copy _ :: es => logged level es

/-- The steps that have nothing to do with the log. -/
def bases : List Ev → List TraceSrv.Ev
  | [] => []
  | .base e :: es => e :: bases es
  | _ :: es => bases es

/-- What came to `stderr` in one of the three ways. -/
def onErr (s : LogSt) (t : Tag) : List (List Char) := (s.err.filter (fun x => x.1 = t)).map (·.2)

/-- The states after a sequence of steps whose steps of clients and servers each meet `G`. -/
inductive LHist (G : TraceSrv.St → TraceSrv.Ev → Prop) (level : Int) : LogSt → Prop
  | start : LHist G level (Log.start level)
  | step {s s' : LogSt} (e : Ev) : LHist G level s → (∀ b, e = .base b → G s.srv b) → Log.step s e = .ok s' → LHist G level s'

end Nfqlb.Spec.Log
