import Verif.Model.LogShm

/-! Specification of settings that several processes share: each reading gives what was set last, by whomever, and nobody dies. -/

namespace Nfqlb.Spec.LogShm

open Nfqlb.LogShm (Entry)

/-- The entries of a run agree with settings that are at first `level` and `mask`. -/
def Agrees : Int → Nat → List Entry → Prop
  | _, _, [] => True
  | level, mask, .gotLevel _ x :: es => x = level ∧ Agrees level mask es
  | _, mask, .setLevel _ x :: es => Agrees x mask es
  | level, mask, .gotMask _ x :: es => x = mask ∧ Agrees level mask es
  | level, _, .setMask _ x :: es => Agrees level x es
  | _, _, .died _ :: _ => False
  | _, _, .crashed _ :: _ => False

end Nfqlb.Spec.LogShm
