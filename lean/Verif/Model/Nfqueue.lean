import Verif.Model.Packet

/-! Model of the callback for queued packets, /repo/src/lib/nfqueue.c:45-107 and the loop :210-221. The messages are what the netlink library gives: attributes, with values in network byte order. Setting up the queue
and the encoding of messages are not modelled. -/

namespace Nfqlb.Nfq

open Nfqlb

/-- `struct nfqnl_msg_packet_hdr`, as used in /repo/src/lib/nfqueue.c:94-100, in network byte order. -/
structure PktHdr where
  packetId : UInt8 × UInt8 × UInt8 × UInt8
  hwProtocol : Raw16
  deriving Repr, DecidableEq

/-- A message from the kernel, /repo/src/lib/nfqueue.c:82-99. `none` for attributes that are not there. -/
structure Msg where
  resId : Raw16
  parses : Bool
  hdr : Option PktHdr
  payload : Option (List UInt8)
  deriving Repr, DecidableEq

/-- A message to the kernel, /repo/src/lib/nfqueue.c:53-55. The values are in host byte order here; the library puts them in network byte order. -/
structure Verdict where
  queue : Nat
  id : Nat
  mark : Nat
  verdict : Nat
  deriving Repr, DecidableEq

/-- `ntohl` of `ph->packet_id`, /repo/src/lib/nfqueue.c:97. -/
def ntohl (x : UInt8 × UInt8 × UInt8 × UInt8) : Nat := 16777216 * x.1.toNat + 65536 * x.2.1.toNat + 256 * x.2.2.1.toNat + x.2.2.2.toNat

/-- `handlePacket`, /repo/src/lib/nfqueue.c:17 and :100: any function with a state, of protocol, data and length. -/
abbrev Handler (σ : Type) := σ → Nat → List UInt8 → Nat → Res (σ × Int)

/-- `queue_cb`, /repo/src/lib/nfqueue.c:74-107: MNL_CB_ERROR is -1, MNL_CB_OK is 1; the state of the handler; the verdicts sent. Sending does not fail here; if it fails, the program exits (:68-71). Without payload,
`mnl_attr_get_payload_len(NULL)` is undefined. -/
def queueCb {σ : Type} (handle : Handler σ) (st : σ) (m : Msg) : Res (Int × σ × List Verdict) :=
  if m.parses = false then .ok (-1, st, [])
  else match m.hdr with
    | none => .ok (-1, st, [])
    | some ph =>
      match m.payload with
      | none => .ub
      | some payload => do
        let plen := payload.length % 65536
        let id := ntohl ph.packetId
        let (st, fwmark) ← handle st (256 * ph.hwProtocol.1.toNat + ph.hwProtocol.2.toNat) payload plen
        if fwmark < 0 then return (1, st, [⟨256 * m.resId.1.toNat + m.resId.2.toNat, id, 0, 0⟩])
        else return (1, st, [⟨256 * m.resId.1.toNat + m.resId.2.toNat, id, (fwmark % 4294967296).toNat, 1⟩])

/-- The loop of `nfqueueRun`, /repo/src/lib/nfqueue.c:210-221, on the messages that arrive: the verdicts that are sent, and how it ends. The program exits after an error. -/
def run {σ : Type} (handle : Handler σ) : σ → List Msg → List Verdict × Res σ
  | st, [] => ([], .ok st)
  | st, m :: ms =>
    match queueCb handle st m with
    | .ok (rc, st, vs) =>
      if rc < 0 then (vs, .die)
      else
        let r := run handle st ms
        (vs ++ r.1, r.2)
    | .die => ([], .die)
    | .ub => ([], .ub)
    | .hang => ([], .hang)

end Nfqlb.Nfq
