import Verif.Model.System
import Verif.Model.Server

/-! The parts together, as in `Verif/Model/System.lean`, for `nfqlb flowlb`: it gets messages from the kernel and requests from clients, while command lines change the shared memory. Requests, packets and command lines come one after the
other (for what happens when they overlap see C07, C33 and C72). -/

namespace Nfqlb.FSys

open Nfqlb Nfqlb.Cmd Nfqlb.Session

/-- A process that runs `nfqlb flowlb`: what it has set up, the object of the tier that it has mapped (`lbShm`), its table of fragments, and the control server with the flows and the load-balancers. /repo/src/nfqlb/cmdFlowLb.c:71-79. -/
structure Proc where
  s : Start.Started
  lbshm : Option Str
  ft : Frag.Ft
  srv : Server.Srv

/-- The number for an object that is mapped by a load-balancer (`seg` in `Verif/Model/FlowLb.lean`): its name as a number in base 1114113, where 0 is the end. /repo/src/nfqlb/cmdFlowLb.c:443-455. -/
def segOf : Str → Nat
  | [] => 0
  | c :: s => (c.toNat + 1) + 1114113 * segOf s

/-- The name of the object with a number. /repo/src/nfqlb/cmdFlowLb.c:443-455. -/
def objOf (n : Nat) : Str := if n = 0 then [] else Char.ofNat (n % 1114113 - 1) :: objOf (n / 1114113)
termination_by n
decreasing_by exact Nat.div_lt_self (by omega) (by omega)

/-- What the other processes provide now: the objects with their names, and the tables in them. (A table that is never used stands for objects that do not exist; see `packet`.) /repo/src/nfqlb/cmdFlowLb.c:443-455, /repo/src/lib/shmem.c:54-78. -/
def env (nm : Str → Option Str) (w : Store) : FlowLb.Env where
  shm := fun t =>
    match nm t with
    | none => none
    | some k => if w k = none then none else some (segOf k)
  mag := fun i =>
    match w (objOf i) with
    | none => ⟨1, 0, [-1], [], []⟩
    | some o => o.mag

/-- The start of `nfqlb flowlb`, /repo/src/nfqlb/cmdFlowLb.c:239-368. -/
def boot (nm : Str → Option Str) (e : Start.Env) (w : Store) (argv : List Str) : Res Proc := do
  let (vars, _) ← parseOrDie flowLbOpts argv
  match valueOf vars "lbshm".toList with
  | none => do
    let s ← Start.start true e vars
    return ⟨s, none, s.table, Server.start s.ping⟩
  | some u => do
    let j ← Sys.mapObj nm w u
    let s ← Start.start true e vars
    return ⟨s, some j, s.table, Server.start s.ping⟩

/-- What the packet handler uses, /repo/src/nfqlb/cmdFlowLb.c:71-79, with the tables of the tier as they are now in the shared memory. -/
def conf (w : Store) (p : Proc) : Option FlowLb.Conf :=
  match p.lbshm with
  | none => some ⟨p.s.hashMode, p.s.notargets, p.s.nolb, none⟩
  | some j =>
    match w j with
    | none => none
    | some u => some ⟨p.s.hashMode, p.s.notargets, p.s.nolb, some (u.mag, u.own)⟩

/-- The objects that the load-balancers have mapped, /repo/src/nfqlb/cmdFlowLb.c:443-455. -/
def objects (st : FlowLb.St) : List Str := st.lblist.filterMap (fun p => (st.heap p).map (fun l => objOf l.seg))

/-- `packetHandleFn`, /repo/src/nfqlb/cmdFlowLb.c:93-231, as it is called from `queue_cb`, /repo/src/lib/nfqueue.c:100. -/
def handler (c : FlowLb.Conf) (e : FlowLb.Env) (x : Sys.Ctx) : Nfq.Handler (Frag.Ft × FlowLb.St) := fun (ft, st) proto data len => do
  let (st', act) ← FlowLb.pktHandle c e st proto (data.take len)
  let (ft, v, _) ← E2E.finish ft ⟨.flowlb c e st, proto, data.take len, x.now, x.id, x.newOk, x.rcAsm⟩ act
  return ((ft, st'), v)

/-- A message from the kernel, /repo/src/lib/nfqueue.c:74-107 and :210-221: what is sent to the kernel. If an object is not there any more, the process still has it mapped; this is left out here (undefined), see C84. -/
def packet (nm : Str → Option Str) (page : Nat) (w : Store) (p : Proc) (m : Nfq.Msg) (x : Sys.Ctx) : Res (Proc × List (List UInt8)) :=
  match conf w p with
  | none => .ub
  | some c =>
    if (objects p.srv.st).any (fun k => decide (w k = none)) then .ub
    else do
      let (rc, (ft, st), vs) ← Nfq.queueCb (handler c (env nm w) x) (p.ft, p.srv.st) m
      let bs ← Sys.encode page vs
      if rc < 0 then .die else return ({ p with ft := ft, srv := { p.srv with st := st } }, bs)

/-- What happens: somebody runs a command line; a client connects, sends bytes, and stays until the answer is there (`cnt`: the counters of the flows, which are printed in a list); a message comes from the kernel.
/repo/src/lib/nfqueue.c:210-221, /repo/src/nfqlb/cmdFlowLb.c:504-566, /repo/src/nfqlb/cmdConfig.c:15-121, /repo/src/nfqlb/cmdShm.c:34-82. -/
inductive Event where
  | line (argv : List Str)
  | conn (cnt : Flow.Flow → Nat) (bytes : List Char)
  | msg (m : Nfq.Msg) (x : Sys.Ctx)

/-- What the process sends: a message to the kernel, /repo/src/lib/nfqueue.c:45-72, or an answer to a client, /repo/src/nfqlb/cmdFlowLb.c:528-566. -/
inductive Sent where
  | kernel (bytes : List UInt8)
  | client (o : Server.Out)

/-- `init` or `delete` has changed an object that the process has mapped, /repo/src/nfqlb/cmdShm.c:22-32 and :79. -/
def touched (argv : List Str) (w w' : Store) (p : Proc) : Bool :=
  (decide (argv.head? = some "init".toList) || decide (argv.head? = some "delete".toList)) &&
    ((objects p.srv.st).any (fun k => decide (w' k ≠ w k)) || match p.lbshm with | none => false | some j => decide (w' j ≠ w j))

/-- One event: the store, the process, and what it sends. An `init` or `delete` of an object that is mapped is left out (undefined), see C84. /repo/src/lib/nfqueue.c:210-221, /repo/src/nfqlb/cmdFlowLb.c:504-566. -/
def step (rq : (Nat → Nat) → List Nat → List Nat) (fq : List Flow.Flow → List Flow.Flow) (nm : Str → Option Str) (rnd : Nat → Nat) (page : Nat) (w : Store) (p : Proc) : Event → Res (Store × Proc × List Sent)
  | .line argv =>
    match Session.line nm rnd w argv with
    | .ok (w', _) => if touched argv w w' p then .ub else .ok (w', p, [])
    | .die => .ok (w, p, [])
    | .ub => .ub
    | .hang => .hang
  | .conn cnt bytes => do
    let (srv, o) ← Server.serve rq fq p.srv ⟨env nm w, cnt, bytes, false⟩
    return (w, { p with srv := srv }, [.client o])
  | .msg m x => do
    let (p, bs) ← packet nm page w p m x
    return (w, p, bs.map .kernel)

/-- Events one after the other, /repo/src/lib/nfqueue.c:210-221, /repo/src/nfqlb/cmdFlowLb.c:504-566. -/
def run (rq : (Nat → Nat) → List Nat → List Nat) (fq : List Flow.Flow → List Flow.Flow) (nm : Str → Option Str) (rnd : Nat → Nat) (page : Nat) : Store → Proc → List Event → Res (Store × Proc × List Sent)
  | w, p, [] => .ok (w, p, [])
  | w, p, e :: es => do
    let (w, p, bs) ← step rq fq nm rnd page w p e
    let (w, p, cs) ← run rq fq nm rnd page w p es
    return (w, p, bs ++ cs)

end Nfqlb.FSys
