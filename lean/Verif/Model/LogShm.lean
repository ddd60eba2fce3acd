import Verif.Model.Basic

/-! The log settings in shared memory: `logConfigShm` of `/repo/src/lib/log.c:66-73` with `createSharedData` and `mapSharedData` of
`/repo/src/lib/shmem.c:38-78`, run by any number of processes whose steps are interleaved.  A step is a system call, or an access to
the mapped memory. -/

namespace Nfqlb.LogShm

/-- `struct LogConfig`, /repo/src/lib/log.h:11-14. -/
structure Config where
  level : Int
  mask : Nat
  deriving Repr, DecidableEq

/-- `default_config`, /repo/src/lib/log.c:18. -/
def default : Config := { level := 5, mask := 0 }

/-- The shared memory object "nfqlb-trace": it does not exist, it is empty (created or truncated by `shm_open`), or it holds the structure,
/repo/src/lib/shmem.c:40-42.  (The 8 bytes are written by one `write`.) -/
inductive Obj where
  | absent
  | empty
  | full (c : Config)
  deriving Repr, DecidableEq

/-- Where a process is in `logConfigShm`, /repo/src/lib/log.c:66-73, /repo/src/lib/shmem.c:38-78. -/
inductive Pc where
  /-- before `shm_open` in the first `mapSharedData` -/
  | start
  /-- before its `fstat` and `mmap` -/
  | opened
  /-- before `shm_open` with `O_CREAT|O_TRUNC` -/
  | create
  /-- before `write` -/
  | created
  /-- before `shm_open` in the second `mapSharedData` -/
  | again
  /-- before its `fstat` and `mmap` -/
  | againOpened
  /-- `logConfigShm` has returned -/
  | mapped
  /-- `die` -/
  | died
  /-- a bus error -/
  | crashed
  deriving Repr, DecidableEq

/-- What a process that has mapped the settings does with them, /repo/src/lib/log.h:18-20 and :37-45. -/
inductive Use where
  | getLevel
  | setLevel (x : Int)
  | getMask
  | setMask (x : Nat)
  deriving Repr, DecidableEq

/-- What can be seen of a step. E.g. in `loglevel`, /repo/src/nfqlb/cmdTrace.c:109-112. -/
inductive Entry where
  | gotLevel (pid : Nat) (x : Int)
  | setLevel (pid : Nat) (x : Int)
  | gotMask (pid : Nat) (x : Nat)
  | setMask (pid : Nat) (x : Nat)
  | died (pid : Nat)
  | crashed (pid : Nat)
  deriving Repr, DecidableEq

/-- The processes and the object, /repo/src/lib/log.c:66-73. -/
structure Sys where
  pc : Nat → Pc
  obj : Obj

/-- Process `p` moves to `c`, /repo/src/lib/log.c:66-73. -/
def Sys.go (s : Sys) (p : Nat) (c : Pc) : Sys := { s with pc := fun q => if q = p then c else s.pc q }

/-- An access to the mapped memory, /repo/src/lib/log.h:18-20; if the file is empty it is a bus error. -/
def use (s : Sys) (p : Nat) (u : Use) : Sys × List Entry :=
  match s.obj with
  | .full c =>
    match u with
    | .getLevel => (s, [.gotLevel p c.level])
    | .setLevel x => ({ s with obj := .full { c with level := x } }, [.setLevel p x])
    | .getMask => (s, [.gotMask p c.mask])
    | .setMask x => ({ s with obj := .full { c with mask := x } }, [.setMask p x])
  | _ => (s.go p .crashed, [.crashed p])

/-- `fstat` and `mmap`, /repo/src/lib/shmem.c:59-69: `mmap` refuses an empty object. -/
def mmapped (s : Sys) (p : Nat) (fail : Sys × List Entry) : Sys × List Entry :=
  match s.obj with
  | .full _ => (s.go p .mapped, [])
  | _ => fail

/-- The next step of process `p`; `u` is what it does if it has mapped the settings, /repo/src/lib/log.c:66-73,
/repo/src/lib/shmem.c:38-78. -/
def step (s : Sys) (p : Nat) (u : Use) : Sys × List Entry :=
  match s.pc p with
  | .start => if s.obj = .absent then (s.go p .create, []) else (s.go p .opened, [])
  | .opened => mmapped s p (s.go p .create, [])
  | .create => ({ s.go p .created with obj := .empty }, [])
  | .created => ({ s.go p .again with obj := .full default }, [])
  | .again => if s.obj = .absent then (s.go p .died, [.died p]) else (s.go p .againOpened, [])
  | .againOpened => mmapped s p (s.go p .died, [.died p])
  | .mapped => use s p u
  | .died => (s, [])
  | .crashed => (s, [])

/-- A run: which process makes the next step, and what it does, /repo/src/lib/log.c:66-73. -/
def run : Sys → List (Nat × Use) → Sys × List Entry
  | s, [] => (s, [])
  | s, (p, u) :: es =>
    let r := step s p u
    let t := run r.1 es
    (t.1, r.2 ++ t.2)

/-- Is a message logged: 4 `warning`, 5 `notice`, 6 `info`, 7 `debug`, /repo/src/lib/log.h:31-38. -/
def logged (level : Int) (severity : Nat) : Bool := decide (level ≥ severity)

/-- What `loglevel` with an argument does when the settings are mapped: `level` is `atoi` of the text, and the level is printed,
/repo/src/nfqlb/cmdTrace.c:109-112. -/
def loglevel (p : Nat) (level : Option Int) : List (Nat × Use) :=
  match level with
  | some x => [(p, .setLevel x), (p, .getLevel)]
  | none => [(p, .getLevel)]

end Nfqlb.LogShm
