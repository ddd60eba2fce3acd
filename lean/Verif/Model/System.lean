import Verif.Model.Session
import Verif.Model.EndToEnd
import Verif.Model.NlMsg

/-! The parts together: `nfqlb lb` on a command line, which gets messages from the kernel and sends messages to it, while command lines change the shared memory. Each command runs to its end between two messages (for what happens
in between see C07), and messages are handled one after the other (for several queues at the same time see C33). Written fragments, statistics, trace and log are left out. -/

namespace Nfqlb.Sys

open Nfqlb Nfqlb.Cmd Nfqlb.Session

/-- A process that runs `nfqlb lb`: what it has set up, the objects that it has mapped (`targetShm`, `lbShm`), and its table of fragments. /repo/src/nfqlb/cmdLb.c:20-30. -/
structure Proc where
  s : Start.Started
  tshm : Str
  lbshm : Option Str
  ft : Frag.Ft

/-- `mapSharedDataOrDie`, /repo/src/lib/shmem.c:54-78: the object with this name. -/
def mapObj (nm : Str → Option Str) (w : Store) (name : Str) : Res Str :=
  match nm name with
  | none => .die
  | some k => if w k = none then .die else .ok k

/-- The start of `nfqlb lb`, /repo/src/nfqlb/cmdLb.c:123-228. -/
def boot (nm : Str → Option Str) (e : Start.Env) (w : Store) (argv : List Str) : Res Proc := do
  let (vars, _) ← parseOrDie lbOpts argv
  match valueOf vars "tshm".toList with
  | none => .ub
  | some t => do
    let k ← mapObj nm w t
    match valueOf vars "lbshm".toList with
    | none => do
      let s ← Start.start false e vars
      return ⟨s, k, none, s.table⟩
    | some u => do
      let j ← mapObj nm w u
      let s ← Start.start false e vars
      return ⟨s, k, some j, s.table⟩

/-- What the packet handler uses, /repo/src/nfqlb/cmdLb.c:20-30, with the tables as they are now in the shared memory. -/
def conf (w : Store) (p : Proc) : Option LbConf :=
  match w p.tshm with
  | none => none
  | some t =>
    match p.lbshm with
    | none => some ⟨p.s.udpEncap, p.s.hashMode, p.s.notargets, t.mag, none⟩
    | some j =>
      match w j with
      | none => none
      | some u => some ⟨p.s.udpEncap, p.s.hashMode, p.s.notargets, t.mag, some (u.mag, u.own)⟩

/-- What a packet handler gets from its surroundings: the time, a number for the contents, whether there is memory for an entry, and what the reassembler would return (see `Verif/Model/FragTable.lean`). /repo/src/nfqlb/cmdLb.c:53-115. -/
structure Ctx where
  now : Nat
  id : Nat
  newOk : Bool
  rcAsm : Int
  deriving Repr, DecidableEq

/-- `packetHandleFn`, /repo/src/nfqlb/cmdLb.c:53-115, as it is called from `queue_cb`, /repo/src/lib/nfqueue.c:100. -/
def handler (c : LbConf) (x : Ctx) : Nfq.Handler Frag.Ft := fun ft proto data len => do
  let (ft, v, _) ← E2E.handle ft ⟨.lb c, proto, data.take len, x.now, x.id, x.newOk, x.rcAsm⟩
  return (ft, v)

/-- The bytes of each verdict, /repo/src/lib/nfqueue.c:45-72. -/
def encode (page : Nat) : List Nfq.Verdict → Res (List (List UInt8))
  | [] => .ok []
  | v :: vs => do
    let b ← Nl.verdictMsg page v
    let bs ← encode page vs
    return b :: bs

/-- A message from the kernel, /repo/src/lib/nfqueue.c:74-107 and :210-221: what is sent to the kernel. If an object is not there any more, the process still has it mapped; this is left out here (undefined), see C84. -/
def packet (page : Nat) (w : Store) (p : Proc) (m : Nfq.Msg) (x : Ctx) : Res (Proc × List (List UInt8)) :=
  match conf w p with
  | none => .ub
  | some c => do
    let (rc, ft, vs) ← Nfq.queueCb (handler c x) p.ft m
    let bs ← encode page vs
    if rc < 0 then .die else return ({ p with ft := ft }, bs)

/-- What happens: somebody runs a command line, or a message comes from the kernel. /repo/src/lib/nfqueue.c:210-221, /repo/src/nfqlb/cmdConfig.c:15-121, /repo/src/nfqlb/cmdShm.c:34-82. -/
inductive Event where
  | line (argv : List Str)
  | msg (m : Nfq.Msg) (x : Ctx)

/-- `init` or `delete` has changed an object that the process has mapped, /repo/src/nfqlb/cmdShm.c:22-32 and :79. -/
def touched (argv : List Str) (w w' : Store) (p : Proc) : Bool :=
  (decide (argv.head? = some "init".toList) || decide (argv.head? = some "delete".toList)) &&
    (decide (w' p.tshm ≠ w p.tshm) || match p.lbshm with | none => false | some j => decide (w' j ≠ w j))

/-- One event: the store, the process, and what it sends. An `init` or `delete` of an object that is mapped is left out (undefined), see C84. /repo/src/lib/nfqueue.c:210-221, /repo/src/nfqlb/cmdConfig.c:15-121. -/
def step (nm : Str → Option Str) (rnd : Nat → Nat) (page : Nat) (w : Store) (p : Proc) : Event → Res (Store × Proc × List (List UInt8))
  | .line argv =>
    match Session.line nm rnd w argv with
    | .ok (w', _) => if touched argv w w' p then .ub else .ok (w', p, [])
    | .die => .ok (w, p, [])
    | .ub => .ub
    | .hang => .hang
  | .msg m x => do
    let (p, bs) ← packet page w p m x
    return (w, p, bs)

/-- Events one after the other, /repo/src/lib/nfqueue.c:210-221. -/
def run (nm : Str → Option Str) (rnd : Nat → Nat) (page : Nat) : Store → Proc → List Event → Res (Store × Proc × List (List UInt8))
  | w, p, [] => .ok (w, p, [])
  | w, p, e :: es => do
    let (w, p, bs) ← step nm rnd page w p e
    let (w, p, cs) ← run nm rnd page w p es
    return (w, p, bs ++ cs)

end Nfqlb.Sys
