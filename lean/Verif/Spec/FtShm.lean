import Verif.Model.FtShm

/-! Specification for the statistics in shared memory. -/

set_option autoImplicit false

namespace Nfqlb.Spec.FtShm

open Nfqlb Nfqlb.FtShm

/-- No two load-balancers are started with the same `--ft_shm`, and each has at least one bucket. -/
def Private (evs : List Ev) : Prop := (∀ p q n c d, Ev.start p n c ∈ evs → Ev.start q n d ∈ evs → p = q) ∧ ∀ p n c, Ev.start p n c ∈ evs → 0 < c.size

/-- The value of a counter. -/
def value (s : Report.FragStats) : Counter → Nat
  | .collisions => s.collisions
  | .inserts => s.inserts
  | .rejectedInserts => s.rejectedInserts
  | .lookups => s.lookups
  | .objGC => s.objGC
  | .bucketsAllocated => s.bucketsAllocated
  | .fragsAllocated => s.fragsAllocated
  | .fragsDiscarded => s.fragsDiscarded
  | .reAssembled => s.reAssembled

end Nfqlb.Spec.FtShm
