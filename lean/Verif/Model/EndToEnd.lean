import Verif.Model.FlowLb
import Verif.Model.FragTable

/-! The packet handlers together with the fragment table: /repo/src/nfqlb/cmdLb.c:53-115 and /repo/src/nfqlb/cmdFlowLb.c:93-231. The calls do not overlap in time. -/

namespace Nfqlb.E2E

open Nfqlb.Frag (Ft)

/-- The program that handles a packet, with all that its decision depends on at that moment: `nfqlb lb`, or `nfqlb flowlb`. /repo/src/nfqlb/cmdLb.c:53-115 and /repo/src/nfqlb/cmdFlowLb.c:93-231. -/
inductive Prog where
  | lb (c : LbConf)
  | flowlb (conf : FlowLb.Conf) (env : FlowLb.Env) (st : FlowLb.St)

/-- A packet: the program, the protocol and the bytes, when it arrives, a number for its contents, and what the reassembler would return (see `Verif/Model/FragTable.lean`). The arguments of /repo/src/nfqlb/cmdLb.c:53-115 and /repo/src/nfqlb/cmdFlowLb.c:93-231. -/
structure Arrival where
  prog : Prog
  proto : Nat
  data : Packet
  now : Nat
  id : Nat
  newOk : Bool
  rcAsm : Int

/-- The decision up to the call of the fragment table. /repo/src/nfqlb/cmdLb.c:53-115 and /repo/src/nfqlb/cmdFlowLb.c:93-231. -/
def action (a : Arrival) : Res LbAction :=
  match a.prog with
  | .lb c => lbDecide c a.proto a.data
  | .flowlb conf env st => do
    let (_, r) ← FlowLb.pktHandle conf env st a.proto a.data
    return r

/-- The calls of the fragment table, /repo/src/nfqlb/cmdLb.c:80-88 and :99-114 (/repo/src/nfqlb/cmdFlowLb.c:121-129 and :201-230): the value that the handler returns, and the fragments that are injected. -/
def finish (ft : Ft) (a : Arrival) : LbAction → Res (Ft × Int × List Nat)
  | .verdict fw => .ok (ft, fw, [])
  | .later k => do
    let (ft, r) ← Frag.step ft (.frag a.now k a.id a.data.length a.newOk a.rcAsm)
    match r.rc, r.value with
    | 0, some fw => return (ft, fw, [])
    | 0, none => .ub
    | _, _ => return (ft, -1, [])
  | .first k fw => do
    let (ft, r) ← Frag.step ft (.first a.now k fw a.newOk)
    if r.rc ≠ 0 then return (ft, -1, r.injected) else return (ft, fw, r.injected)

/-- The packet handler, /repo/src/nfqlb/cmdLb.c:53-115 and /repo/src/nfqlb/cmdFlowLb.c:93-231. -/
def handle (ft : Ft) (a : Arrival) : Res (Ft × Int × List Nat) := do
  let act ← action a
  finish ft a act

/-- A sequence of packets: the table and the values returned. The calls of `handlePacket` in /repo/src/lib/nfqueue.c:100, one after the other. -/
def run (ft : Ft) : List Arrival → Res (Ft × List Int)
  | [] => .ok (ft, [])
  | a :: as => do
    let (ft, v, _) ← handle ft a
    let (ft, vs) ← run ft as
    return (ft, v :: vs)

end Nfqlb.E2E
