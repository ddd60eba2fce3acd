import Verif.Spec.Hash

/-! Packets whose headers are at the beginning. -/

namespace Nfqlb.Spec.Copy

open Nfqlb Nfqlb.Spec

/-- There are no IPv6 extension headers: byte 6 of an IPv6 packet, the next header, is not one; and if the packet has ICMPv6 (58), byte 54, the next header of an IPv6 packet that is quoted behind the 40 bytes of
the IPv6 header and 8 bytes of the ICMPv6 header, is not one either. Nothing for other packets. -/
def NoExt (proto : Nat) (data : Packet) : Prop :=
  proto = 0x86dd → (∀ t, data[6]? = some t → ¬ IsExt t) ∧ (data[6]? = some 58 → ∀ t, data[54]? = some t → ¬ IsExt t)

end Nfqlb.Spec.Copy
