import Verif.Spec.Server
import Verif.Spec.PacketExact

/-! Packets and flows for which the packet handler of `nfqlb flowlb` should return. -/

namespace Nfqlb.Spec.Pkt

open Nfqlb.Spec

/-- The packet is not cut off within the headers that decide, and the headers after the fragment header of an IPv6 first fragment do not go round: exactly the packets that can be parsed (C92). -/
def Whole (proto : Nat) (d : Packet) : Prop :=
  (proto = 0x0800 → ¬ Cut4 d) ∧ (proto = 0x86dd → ¬ Cut6 d ∧ ¬ Circle6 d)

/-- No match expression of a flow in the set has an offset beyond 4 GiB (see C47). -/
def NoWrap (set : Flow.FlowSet) : Prop := ∀ f ∈ set.flows, ∀ m, f.mtch = some m → ∀ i ∈ m, i.offset + i.nbytes < 4294967296

end Nfqlb.Spec.Pkt
