import Verif.Model.Nfqueue

/-! How much of a packet is handed over: the copy range, /repo/src/lib/nfqueue.c:165. -/

namespace Nfqlb.Nfq

open Nfqlb

/-- The test of the option `mtu`, /repo/src/nfqlb/cmdLb.c:182-184 and /repo/src/nfqlb/cmdFlowLb.c:306-308 (`xlb` uses 576, /repo/src/extension/cmdXlb.c:74). -/
def mtuOk (mtu : Nat) : Bool := decide (576 ≤ mtu)

/-- The number of bytes that the kernel copies at most, after `nfq_nlmsg_cfg_put_params(nlh, NFQNL_COPY_PACKET, mtu)`, /repo/src/lib/nfqueue.c:165: the
range 0 and ranges that do not fit in an attribute are taken as the largest, 65531 (the kernel's nfqnl_set_mode). -/
def copyRange (mtu : Nat) : Nat := if mtu = 0 ∨ 65531 < mtu then 65531 else mtu

/-- What is handed over of a packet, /repo/src/lib/nfqueue.c:165-168: with NFQA_CFG_F_GSO packets that are longer than the mtu are not split, but cut off. -/
def copied (mtu : Nat) (data : Packet) : Packet := data.take (copyRange mtu)

end Nfqlb.Nfq
