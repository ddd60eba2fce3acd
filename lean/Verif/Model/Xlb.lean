import Verif.Model.System

/-! The extension `nfqlb xlb`, /repo/src/extension/cmdXlb.c, as a whole: it starts on a command line, gets messages from the kernel and sends messages to it, while command lines change the shared memory. As in `Verif/Model/System.lean`,
each command runs to its end between two messages (for what happens in between see C07), and messages are handled one after the other. -/

namespace Nfqlb.XSys

open Nfqlb Nfqlb.Cmd Nfqlb.Session

/-- The options, /repo/src/extension/cmdXlb.c:57-68. -/
def xlbOpts : List Opt := [helpOpt, row "tshm" (some "nfqlb"), row "queue" (some "2"), row "qlength" (some "1024")]

/-- A process that runs `nfqlb xlb`: the object that it has mapped (`st`), the length of the queues, and the queues. /repo/src/extension/cmdXlb.c:23-24 and :70-95. -/
structure Proc where
  tshm : Str
  qlen : Nat
  queues : List Nat
  deriving Repr, DecidableEq

/-- `cmdXlb`, /repo/src/extension/cmdXlb.c:55-96. `thread`: does `pthread_create` succeed for a queue. The queues are read as in `lb`. -/
def boot (nm : Str → Option Str) (thread : Nat → Bool) (w : Store) (argv : List Str) : Res Proc := do
  let (vars, _) ← parseOrDie xlbOpts argv
  match valueOf vars "tshm".toList with
  | none => .ub
  | some t => do
    let k ← Sys.mapObj nm w t
    let qlen ← Start.num vars "qlength"
    match valueOf vars "queue".toList with
    | none => .ub
    | some q => do
      let qs ← Start.queues thread q
      return ⟨k, Start.uns qlen, qs⟩

/-- `packetHandleFn`, /repo/src/extension/cmdXlb.c:36-47, as it is called from `queue_cb`, /repo/src/lib/nfqueue.c:100. It has no state. -/
def handler (d : Maglev.Mag) : Nfq.Handler Unit := fun _ proto data len => do
  let v ← xlbDecide d proto (data.take len)
  return ((), v)

/-- A message from the kernel, /repo/src/lib/nfqueue.c:74-107 and :210-221: what is sent to the kernel. If the object is not there any more, the process still has it mapped; this is left out here (undefined), see C84. -/
def packet (page : Nat) (w : Store) (p : Proc) (m : Nfq.Msg) : Res (List (List UInt8)) :=
  match w p.tshm with
  | none => .ub
  | some t => do
    let (rc, _, vs) ← Nfq.queueCb (handler t.mag) () m
    let bs ← Sys.encode page vs
    if rc < 0 then .die else return bs

/-- What happens: somebody runs a command line, or a message comes from the kernel. /repo/src/lib/nfqueue.c:210-221, /repo/src/nfqlb/cmdConfig.c:15-121, /repo/src/nfqlb/cmdShm.c:34-82. -/
inductive Event where
  | line (argv : List Str)
  | msg (m : Nfq.Msg)

/-- `init` or `delete` has changed the object that the process has mapped, /repo/src/nfqlb/cmdShm.c:22-32 and :79. -/
def touched (argv : List Str) (w w' : Store) (p : Proc) : Bool :=
  (decide (argv.head? = some "init".toList) || decide (argv.head? = some "delete".toList)) && decide (w' p.tshm ≠ w p.tshm)

/-- One event: the store, and what the process sends. An `init` or `delete` of the object that is mapped is left out (undefined), see C84. /repo/src/lib/nfqueue.c:210-221, /repo/src/nfqlb/cmdConfig.c:15-121. -/
def step (nm : Str → Option Str) (rnd : Nat → Nat) (page : Nat) (w : Store) (p : Proc) : Event → Res (Store × List (List UInt8))
  | .line argv =>
    match Session.line nm rnd w argv with
    | .ok (w', _) => if touched argv w w' p then .ub else .ok (w', [])
    | .die => .ok (w, [])
    | .ub => .ub
    | .hang => .hang
  | .msg m => do
    let bs ← packet page w p m
    return (w, bs)

/-- Events one after the other, /repo/src/lib/nfqueue.c:210-221. -/
def run (nm : Str → Option Str) (rnd : Nat → Nat) (page : Nat) (p : Proc) : Store → List Event → Res (Store × List (List UInt8))
  | w, [] => .ok (w, [])
  | w, e :: es => do
    let (w, bs) ← step nm rnd page w p e
    let (w, cs) ← run nm rnd page p w es
    return (w, bs ++ cs)

end Nfqlb.XSys
