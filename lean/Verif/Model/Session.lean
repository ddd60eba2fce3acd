import Verif.Model.Options
import Verif.Model.MaglevMem
import Verif.Model.Start
import Verif.Model.Report

/-! Model of the commands for the shared memory on whole command lines: `init`, `delete`, `primebelow` and `show` (/repo/src/nfqlb/cmdShm.c:22-134), `activate` and `deactivate` (/repo/src/nfqlb/cmdConfig.c:15-121). Each command line is
a process of its own; they run one after the other (for a reader that runs at the same time see C07). -/

namespace Nfqlb.Session

open Nfqlb Nfqlb.Cmd Nfqlb.Maglev

/-- `struct SharedData` with the tables in it, /repo/src/lib/nfqueue.h:4-7. -/
structure Shared where
  own : Int
  mag : Mag
  deriving Repr, DecidableEq

/-- The shared memory objects of the machine by their name, /repo/src/lib/shmem.c:40 and :56. -/
abbrev Store := Str → Option Shared

/-- The store with another object (or none) under a name. /repo/src/lib/shmem.c:38-47. -/
def put (w : Store) (k : Str) (x : Option Shared) : Store := fun j => if j = k then x else w j

/-- The words after the options, as `argc -= nopt; argv += nopt` leaves them: `getopt_long_only` has moved them to the end. /repo/src/nfqlb/cmdConfig.c:28-30. -/
def words (opts : List Opt) (argv : List Str) : List Str := (getopt opts argv.tail).2

/-- `cmdInit` with `initShm`, /repo/src/nfqlb/cmdShm.c:22-66. `nm`: the object that a name stands for, `none` if `shm_open` refuses it (C library). When the length is not what it should be (32 bits), memory is used that is not
there, see C06. Memory is available and writing does not fail. -/
def init (nm : Str → Option Str) (rnd : Nat → Nat) (w : Store) (argv : List Str) : Res (Store × List Char) := do
  let (vars, _) ← parseOrDie initOpts argv
  let m ← Start.num vars "M"
  let p ← adjustM (Start.uns m)
  let n ← Start.num vars "N"
  if Start.uns n > p then .die
  else
    let own ← Start.num vars "ownfw"
    match valueOf vars "shm".toList with
    | none => .ub
    | some shm =>
      match nm shm with
      | none => .die
      | some k =>
        if dataLen p (Start.uns n) ≠ headerSize + 4 * (3 + p * Start.uns n) + 4 * (p + Start.uns n) then .ub
        else
          let d ← Maglev.init p (Start.uns n) rnd
          return (put w k (some ⟨own, d⟩), if p ≠ Start.uns m then "M adjusted; ".toList ++ CText.dec (Start.uns m) ++ " -> ".toList ++ CText.dec p ++ "\n".toList else [])

/-- `cmdDelete`, /repo/src/nfqlb/cmdShm.c:67-82: an object that does not exist is no error. -/
def delete (nm : Str → Option Str) (w : Store) (argv : List Str) : Res (Store × List Char) := do
  let (vars, _) ← parseOrDie [helpOpt, row "shm" none true] argv
  match valueOf vars "shm".toList with
  | none => .ub
  | some shm =>
    match nm shm with
    | none => .die
    | some k => return (put w k none, [])

/-- `cmdPrimeBelow`, /repo/src/nfqlb/cmdShm.c:84-98. -/
def primebelow (w : Store) (argv : List Str) : Res (Store × List Char) := do
  let _ ← parseOrDie [helpOpt] argv
  match words [helpOpt] argv with
  | [] => return (w, [])
  | a :: _ =>
    let p ← Prime.primeBelow (Start.uns (Remote.atoi a))
    return (w, CText.dec p ++ "\n".toList)

/-- `mapSharedDataOrDie`, /repo/src/lib/shmem.c:54-78, and what is mapped. -/
def mapped (nm : Str → Option Str) (w : Store) (vars : List Opt) : Res (Str × Str × Shared) :=
  match valueOf vars "shm".toList with
  | none => .ub
  | some shm =>
    match nm shm with
    | none => .die
    | some k =>
      match w k with
      | none => .die
      | some s => .ok (shm, k, s)

/-- `cmdShow`, /repo/src/nfqlb/cmdShm.c:100-134. -/
def showCmd (nm : Str → Option Str) (w : Store) (argv : List Str) : Res (Store × List Char) := do
  let (vars, _) ← parseOrDie [helpOpt, row "shm" (some "nfqlb")] argv
  let (shm, _, s) ← mapped nm w vars
  let t ← Report.cmdShow shm s.own s.mag
  return (w, t)

/-- Which command it is: `atoi` of the words, and with `--index` or not. /repo/src/nfqlb/cmdConfig.c:36-53 and :95-108. -/
def config (act : Bool) (index : Option Str) (ws : List Str) : Maglev.Cmd :=
  match act, index with
  | true, some t => .activateAt (Remote.atoi t) (ws.head?.map Remote.atoi)
  | true, none => .activate (ws.map Remote.atoi)
  | false, some t => .deactivateAt (Remote.atoi t)
  | false, none => .deactivate (ws.map Remote.atoi)

/-- `cmdActivate` and `cmdDeactivate`, /repo/src/nfqlb/cmdConfig.c:15-72 and :74-121. -/
def configCmd (act : Bool) (nm : Str → Option Str) (w : Store) (argv : List Str) : Res (Store × List Char) := do
  let (vars, _) ← parseOrDie activateOpts argv
  let (_, k, s) ← mapped nm w vars
  let d ← runCmd s.mag (config act (valueOf vars "index".toList) (words activateOpts argv))
  return (put w k (some { s with mag := d }), [])

/-- A command line, with the name of the command first: which function it is, /repo/src/nfqlb/cmdShm.c:152-158 and /repo/src/nfqlb/cmdConfig.c:141-145. The other commands are not part of this. -/
def line (nm : Str → Option Str) (rnd : Nat → Nat) (w : Store) (argv : List Str) : Res (Store × List Char) :=
  match argv with
  | [] => .die
  | c :: _ =>
    if c = "init".toList then init nm rnd w argv
    else if c = "delete".toList then delete nm w argv
    else if c = "primebelow".toList then primebelow w argv
    else if c = "show".toList then showCmd nm w argv
    else if c = "activate".toList then configCmd true nm w argv
    else if c = "deactivate".toList then configCmd false nm w argv
    else .die

/-- Command lines one after the other, and what each one prints (nothing is kept of what is printed before an error). A process that ends with an error has not changed the shared memory. `rand()` is not seeded: it delivers the same numbers in
each process. /repo/src/nfqlb/cmdShm.c:22-134 and /repo/src/nfqlb/cmdConfig.c:15-121. -/
def session (nm : Str → Option Str) (rnd : Nat → Nat) (w : Store) : List (List Str) → Res (Store × List (Option (List Char)))
  | [] => .ok (w, [])
  | a :: as =>
    match line nm rnd w a with
    | .ok (w, t) => do
      let (w, ts) ← session nm rnd w as
      return (w, some t :: ts)
    | .die => do
      let (w, ts) ← session nm rnd w as
      return (w, none :: ts)
    | .ub => .ub
    | .hang => .hang

end Nfqlb.Session
