import Verif.Model.Shmem

/-! Words about results of `write(2)`. -/

namespace Nfqlb.Spec.Shm

open Nfqlb.Shmem

/-- The bytes that results of `write(2)` report. -/
def total : List Wr → Nat
  | [] => 0
  | .wrote n :: ws => n + total ws
  | _ :: ws => total ws

/-- The kernel splits and interrupts, but does not refuse, and in the end has taken all of `n` bytes. -/
def Completes (n : Nat) (ws : List Wr) : Prop := .error ∉ ws ∧ total ws = n

end Nfqlb.Spec.Shm
