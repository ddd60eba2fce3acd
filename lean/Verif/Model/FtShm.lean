import Verif.Model.Report
import Verif.Model.Options

/-! Model of the statistics in shared memory (`--ft_shm`) that load-balancers and `nfqlb stats` share: /repo/src/nfqlb/cmdLb.c:176-179 and :211-217, /repo/src/nfqlb/cmdFlowLb.c:300-303 and :330-336,
/repo/src/nfqlb/cmdShm.c:136-150, /repo/src/lib/shmem.c:38-77. The size of the hash table is one of these statistics, and is read from there for each packet (/repo/src/lib/conntrack.c:102).

Simplified: a load-balancer maps the memory in the step in which it writes the zeros; the counter `bucketsUsed`, which also goes down, and `active` are left as they are; calls of the system succeed. A program that accesses a mapped
object behind its end gets SIGBUS, which is `die` here: the run is followed up to the first such end of a program. -/

set_option autoImplicit false

namespace Nfqlb.FtShm

open Nfqlb Nfqlb.Report

/-- What a load-balancer makes its table with, `fragTableCreate`, /repo/src/lib/fragutils.c:195-222. -/
structure Config where
  size : Nat
  ttlNanos : Nat
  mtu : Nat
  bucketsMax : Nat
  fragsMax : Nat
deriving DecidableEq

/-- The statistics that only go up, each with an atomic increment: /repo/src/lib/conntrack.c:74, :87, :110, :164, :186, :207, :213 and :216, /repo/src/lib/fragutils.c:92, :173, :304, :343, :390 and :434. -/
inductive Counter where
  | collisions | inserts | rejectedInserts | lookups | objGC | bucketsAllocated | fragsAllocated | fragsDiscarded | reAssembled
deriving DecidableEq

/-- `calloc` of the statistics, /repo/src/nfqlb/cmdLb.c:176 and /repo/src/nfqlb/cmdFlowLb.c:300. -/
def zeros : FragStats := ⟨0, 0, 0, 0, 0, 0, 0, 0, 0, 0, 0, 0, 0, 0, 0⟩

/-- The statistics of a new table, /repo/src/lib/fragutils.c:210-214 and /repo/src/lib/conntrack.c:131-133. -/
def fresh (c : Config) : FragStats := { zeros with size := c.size, ttlNanos := c.ttlNanos, mtu := c.mtu, bucketsMax := c.bucketsMax, fragsMax := c.fragsMax }

/-- An atomic increment modulo 2^32, /repo/src/lib/fragutils.c:23 and /repo/src/lib/conntrack.c:25. -/
def bump (s : FragStats) : Counter → FragStats
  | .collisions => { s with collisions := u32 (s.collisions + 1) }
  | .inserts => { s with inserts := u32 (s.inserts + 1) }
  | .rejectedInserts => { s with rejectedInserts := u32 (s.rejectedInserts + 1) }
  | .lookups => { s with lookups := u32 (s.lookups + 1) }
  | .objGC => { s with objGC := u32 (s.objGC + 1) }
  | .bucketsAllocated => { s with bucketsAllocated := u32 (s.bucketsAllocated + 1) }
  | .fragsAllocated => { s with fragsAllocated := u32 (s.fragsAllocated + 1) }
  | .fragsDiscarded => { s with fragsDiscarded := u32 (s.fragsDiscarded + 1) }
  | .reAssembled => { s with reAssembled := u32 (s.reAssembled + 1) }

/-- Where a process is, /repo/src/nfqlb/cmdLb.c:176-217 and /repo/src/nfqlb/cmdFlowLb.c:300-336: not started; has opened (and truncated) the memory (/repo/src/lib/shmem.c:40); has written the zeros and mapped it; uses it
(/repo/src/lib/fragutils.c:259-264) with a table of `size` buckets. -/
inductive Proc where
  | idle
  | opened (name : List Char) (c : Config)
  | zeroed (name : List Char) (c : Config)
  | running (name : List Char) (c : Config)

/-- The objects in shared memory (`some none`: empty, after `O_TRUNC`), which are never removed by the load-balancer, and the processes. /repo/src/lib/shmem.c:38-77. -/
structure Sys where
  mem : List Char → Option (Option FragStats)
  proc : Nat → Proc

/-- The steps: those of a start (see `Proc`), looking for the bucket of a key with some hash (/repo/src/lib/conntrack.c:98-103), an increment. -/
inductive Ev where
  | start (p : Nat) (name : List Char) (c : Config)
  | zero (p : Nat)
  | use (p : Nat)
  | bucket (p : Nat) (hash : Nat)
  | count (p : Nat) (c : Counter)
deriving DecidableEq

/-- The contents of an object change. /repo/src/lib/shmem.c:40-41. -/
def Sys.put (s : Sys) (name : List Char) (x : Option FragStats) : Sys := { s with mem := fun n => if n = name then some x else s.mem n }

/-- A process goes on, /repo/src/nfqlb/cmdLb.c:176-217. -/
def Sys.go (s : Sys) (p : Nat) (x : Proc) : Sys := { s with proc := fun q => if q = p then x else s.proc q }

/-- One step. /repo/src/nfqlb/cmdLb.c:176-217, /repo/src/lib/fragutils.c:259-264, /repo/src/lib/conntrack.c:102: `hash % ct->stats->size` is undefined for the size 0, and the mutex of a bucket behind the end of the own array is
undefined. -/
def step (s : Sys) : Ev → Res Sys
  | .start p name c =>
    match s.proc p with
    | .idle => .ok ((s.put name none).go p (.opened name c))
    | _ => .ok s
  | .zero p =>
    match s.proc p with
    | .opened name c => .ok ((s.put name (some zeros)).go p (.zeroed name c))
    | _ => .ok s
  | .use p =>
    match s.proc p with
    | .zeroed name c =>
      match s.mem name with
      | some (some _) => .ok ((s.put name (some (fresh c))).go p (.running name c))
      | _ => .die
    | _ => .ok s
  | .bucket p hash =>
    match s.proc p with
    | .running name c =>
      match s.mem name with
      | some (some st) => if st.size = 0 then .ub else if hash % st.size < c.size then .ok s else .ub
      | _ => .die
    | _ => .ok s
  | .count p k =>
    match s.proc p with
    | .running name _ =>
      match s.mem name with
      | some (some st) => .ok (s.put name (some (bump st k)))
      | _ => .die
    | _ => .ok s

/-- A sequence of steps. /repo/src/nfqlb/cmdLb.c:176-217 and the packets that follow. -/
def run (s : Sys) : List Ev → Res Sys
  | [] => .ok s
  | e :: es => do let s ← step s e; run s es

/-- No shared memory and no processes: before /repo/src/nfqlb/cmdLb.c:176. -/
def init : Sys := ⟨fun _ => none, fun _ => .idle⟩

/-- The options of `nfqlb stats`, /repo/src/nfqlb/cmdShm.c:138-145. -/
def statsOpts : List Cmd.Opt := [Cmd.helpOpt, Cmd.row "ft_shm" (some "ftshm")]

/-- `nfqlb stats`, /repo/src/nfqlb/cmdShm.c:136-150: the text that is printed. Without the memory the program ends (/repo/src/lib/shmem.c:71-77), also if it is empty, since then `mmap` fails (:62-68). -/
def stats (s : Sys) (argv : List (List Char)) : Res (List Char) := do
  let (vars, _) ← Cmd.parseOrDie statsOpts argv
  match Cmd.valueOf vars "ft_shm".toList with
  | none => .ub
  | some name =>
    match s.mem name with
    | some (some st) => .ok (fragPrintStats st)
    | _ => .die

end Nfqlb.FtShm
