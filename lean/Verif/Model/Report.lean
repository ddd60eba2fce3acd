import Verif.Model.FragTable
import Verif.Model.Maglev
import Verif.Model.Trace

/-! Model of the commands that print what is in shared memory: `nfqlb stats` (/repo/src/nfqlb/cmdShm.c:136-150 and /repo/src/lib/fragutils.c:512-537) and `nfqlb show` (/repo/src/nfqlb/cmdShm.c:100-134). The text is what is written to the
standard output; writing does not fail. -/

namespace Nfqlb.Report

open Nfqlb CText

/-- `struct fragStats` with `struct ctStats` in it, /repo/src/lib/fragutils.h:144-156 and /repo/src/lib/conntrack.h:62-71; without `active`, which is not printed. -/
structure FragStats where
  size : Nat
  ttlNanos : Nat
  collisions : Nat
  inserts : Nat
  rejectedInserts : Nat
  lookups : Nat
  objGC : Nat
  mtu : Nat
  bucketsMax : Nat
  bucketsAllocated : Nat
  bucketsUsed : Nat
  fragsMax : Nat
  fragsAllocated : Nat
  fragsDiscarded : Nat
  reAssembled : Nat
  deriving Repr, DecidableEq

/-- What is in the shared memory of a running load-balancer: `fragUseStats` (/repo/src/lib/fragutils.c:259-264) and `ctUseStats` (/repo/src/lib/conntrack.c:153-157) put the counters of the table there. `bucketsMax` and `fragsMax` are the arguments
of `fragTableCreate`, :212-213. -/
def tableStats (ft : Frag.Ft) (bucketsMax fragsMax : Nat) : FragStats where
  size := ft.ct.size
  ttlNanos := ft.ct.ttl
  collisions := ft.ct.stats.collisions
  inserts := ft.ct.stats.inserts
  rejectedInserts := ft.ct.stats.rejectedInserts
  lookups := ft.ct.stats.lookups
  objGC := ft.ct.stats.objGC
  mtu := ft.mtu
  bucketsMax := bucketsMax
  bucketsAllocated := ft.bucketsAllocated
  bucketsUsed := ft.bucketsUsed
  fragsMax := fragsMax
  fragsAllocated := ft.fragsAllocated
  fragsDiscarded := ft.fragsDiscarded
  reAssembled := ft.reAssembled

/-- A line of the format, /repo/src/lib/fragutils.c:516-530: two blanks, the name in quotation marks, a colon, `pad` blanks, `%u`, and what is at the end of the line. -/
def statLine (name : String) (pad n : Nat) (tail : String) : List Char := "  \"".toList ++ name.toList ++ "\":".toList ++ List.replicate pad ' ' ++ dec n ++ tail.toList

/-- `fragPrintStats`, /repo/src/lib/fragutils.c:512-537. -/
def fragPrintStats (s : FragStats) : List Char :=
  "{\n".toList ++
  statLine "hsize" 12 s.size ",\n" ++
  statLine "ttlMillis" 8 (u32 (s.ttlNanos / 1000000)) ",\n" ++
  statLine "collisions" 7 s.collisions ",\n" ++
  statLine "inserts" 10 s.inserts ",\n" ++
  statLine "rejected" 9 s.rejectedInserts ",\n" ++
  statLine "lookups" 10 s.lookups ",\n" ++
  statLine "objGC" 12 s.objGC ",\n" ++
  statLine "mtu" 14 s.mtu ",\n" ++
  statLine "bucketsMax" 7 s.bucketsMax ",\n" ++
  statLine "bucketsAllocated" 1 s.bucketsAllocated ",\n" ++
  statLine "bucketsUsed" 6 s.bucketsUsed ",\n" ++
  statLine "fragsMax" 9 s.fragsMax ",\n" ++
  statLine "fragsAllocated" 3 s.fragsAllocated ",\n" ++
  statLine "fragsDiscarded" 3 s.fragsDiscarded "\n" ++
  statLine "reAssembled" 6 s.reAssembled "\n" ++
  "}\n".toList

/-- `%d` of an `unsigned`, /repo/src/nfqlb/cmdShm.c:119. -/
def decU (n : Nat) : List Char := Trace.decInt (Maglev.cint n)

/-- The loop over the lookup table, /repo/src/nfqlb/cmdShm.c:121-122; `n` is the number of turns left, `i` the index. -/
def showLookup (d : Maglev.Mag) : Nat → Nat → Res (List Char)
  | 0, _ => .ok []
  | n + 1, i =>
    if i < 25 ∧ i < d.M then
      match d.lookup[i]? with
      | none => .ub
      | some v => do
        let t ← showLookup d n (i + 1)
        return " ".toList ++ Trace.decInt v ++ t
    else .ok []

/-- The loop over the targets, /repo/src/nfqlb/cmdShm.c:125-128; `n` is the number of turns left, `i` the index. The index is an `int`: from 2^31 on it is undefined, but no table has so many targets. -/
def showActive (d : Maglev.Mag) : Nat → Nat → Res (List Char)
  | 0, _ => .ok []
  | n + 1, i =>
    match d.active[i]? with
    | none => .ub
    | some v => do
      let t ← showActive d n (i + 1)
      return (if v ≥ 0 then " ".toList ++ Trace.decInt v ++ "(".toList ++ dec i ++ ")".toList else []) ++ t

/-- `cmdShow`, /repo/src/nfqlb/cmdShm.c:100-134, for a shared memory that could be mapped: `own` is `ownFwmark`. -/
def cmdShow (shm : List Char) (own : Int) (d : Maglev.Mag) : Res (List Char) := do
  let l ← showLookup d 25 0
  let a ← showActive d d.N 0
  return "Shm: ".toList ++ shm ++ "\n  Fw: own=".toList ++ Trace.decInt own ++ "\n  Maglev: M=".toList ++ decU d.M ++ ", N=".toList ++ decU d.N ++ "\n   Lookup:".toList ++ l ++ "...\n   Active:".toList ++ a ++ "\n".toList

end Nfqlb.Report
