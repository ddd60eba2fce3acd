import Verif.Model.LbRace

/-! For which interleavings the load-balancers are shown to be safe. -/

namespace Nfqlb.Spec.LbRace

open Nfqlb.LbRace

/-- Runs in which no lookup by name falls between the decrement to 0 of a counter and the removal from the list of that load-balancer. -/
inductive Quiet : St → Prop
  | start : Quiet start
  | move {s s' : St} (m : Mv) : Quiet s → (∀ t, m = .find t → ∀ p, (p, Phase.unlink) ∉ s.pend) → move s m = .ok s' → Quiet s'

end Nfqlb.Spec.LbRace
