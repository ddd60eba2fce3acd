import Verif.Model.MaglevMem

/-! Shared memory that is initiated again while a load-balancer uses it: `initShm` of `/repo/src/nfqlb/cmdShm.c:22-32` with
`createSharedData` of `/repo/src/lib/shmem.c:38-47` on one side, the mapping of `/repo/src/lib/shmem.c:54-93` and the packets
(`/repo/src/nfqlb/cmdLb.c`, `/repo/src/nfqlb/cmdFlowLb.c`) on the other.  Memory is made of 4-byte words (all members of the structures are
4 bytes; that `write(2)` may stop inside a word is left out) and of pages of 4096 bytes. -/

namespace Nfqlb.Reinit

open Nfqlb Maglev

/-- What is in a shared memory object: `struct SharedData`, the word `ownFwmark` and then the words of `mem`,
/repo/src/lib/nfqueue.h:4-7. -/
abbrev File := List Int

/-- Words in a page of memory (`mmap` in /repo/src/lib/shmem.c:62-64 works on whole pages). -/
def pageWords : Nat := 1024

/-- The number of pages for some words, e.g. of `statbuf.st_size` bytes, /repo/src/lib/shmem.c:62-64. -/
def pages (words : Nat) : Nat := (words + pageWords - 1) / pageWords

/-- What a process keeps of a mapping: the pages mapped (/repo/src/lib/shmem.c:62-64) and the `M` and `N` that
`magDataDyn_map` copied from the header; its pointers follow from these, /repo/src/lib/maglevdyn.c:53-70. -/
structure View where
  pages : Nat
  M : Nat
  N : Nat
  deriving Repr, DecidableEq

/-- A load of word `a` through a mapping, e.g. of the line /repo/src/nfqlb/cmdFlowLb.c:187.  Outside of the mapping it is a segmentation fault, in a page
behind the end of the file a bus error (both `ub`); the rest of the last page is zero. -/
def load (v : View) (f : File) (a : Nat) : Res Int :=
  if a / pageWords ≥ v.pages then .ub
  else if a / pageWords ≥ pages f.length then .ub
  else .ok (f.getD a 0)

/-- `mapSharedDataOrDie` and `magDataDyn_map`, /repo/src/lib/shmem.c:54-78 and /repo/src/lib/maglevdyn.c:53-70; `mmap` refuses an
empty file. -/
def map (f : File) : Res View :=
  if f.length = 0 then .die
  else .ok { pages := pages f.length, M := (f.getD 1 0 % 4294967296).toNat, N := (f.getD 2 0 % 4294967296).toNat }

/-- The target of a packet, /repo/src/nfqlb/cmdLb.c:93-95, /repo/src/nfqlb/cmdFlowLb.c:187-189: through the pointers of the view.
The file may change between the two loads: it is `f` at the first and `g` at the second. -/
def target (v : View) (f g : File) (hash : Nat) : Res Int :=
  if v.M = 0 then .ub
  else
    match load v f (1 + lookupW (hash % v.M)) with
    | .ok fw => if fw ≥ 0 then load v g (1 + activeW v.M v.N fw.toNat) else .ok fw
    | .die => .die
    | .ub => .ub
    | .hang => .hang

/-- The result of `munmap(lb->st, statbuf.st_size)` with the size of the file now, /repo/src/nfqlb/cmdFlowLb.c:408-411: pages that stay
mapped though nobody uses them, and pages of something else that are removed. -/
structure Unmapped where
  leaked : Nat
  others : Nat
  deriving Repr, DecidableEq

/-- /repo/src/nfqlb/cmdFlowLb.c:408-411; `munmap` of length 0 is refused and the result is not looked at. -/
def unmap (v : View) (f : File) : Unmapped :=
  { leaked := v.pages - pages f.length, others := pages f.length - v.pages }

/-- A step of `init`: `shm_open` with `O_TRUNC`, a `write(2)` of some words, or a store through its own mapping,
/repo/src/lib/shmem.c:40-42, /repo/src/lib/maglevdyn.c:32-49. -/
inductive Act where
  | trunc
  | write (ws : List Int)
  | store (a : Nat) (x : Int)
  deriving Repr, DecidableEq

/-- One step on the file, /repo/src/lib/shmem.c:40-42, /repo/src/lib/maglevdyn.c:32-49. -/
def act (f : File) : Act → Res File
  | .trunc => .ok []
  | .write ws => .ok (f ++ ws)
  | .store a x => if a < f.length then .ok (f.set a x) else .ub

/-- Steps one after the other, /repo/src/nfqlb/cmdShm.c:25-31. -/
def acts : File → List Act → Res File
  | f, [] => .ok f
  | f, a :: as =>
    match act f a with
    | .ok f' => acts f' as
    | .die => .die
    | .ub => .ub
    | .hang => .hang

/-- The steps of `initShm`, /repo/src/nfqlb/cmdShm.c:22-32.  The malloc'ed block has `ownFw` in front and is not initiated otherwise
(`junk`); `pieces` are the parts in which the kernel takes it (their concatenation is the block).  Then the stores of
`magDataDyn_init` (the memory begins at word 1). -/
def initActs (pieces : List (List Int)) (M N : Nat) (rnd : Nat → Nat) : List Act :=
  .trunc :: pieces.map .write ++ (initStores M N rnd).map (fun s => .store (1 + s.1) s.2)

/-! ### Names and objects -/

/-- The shared memory of the machine: the object (inode) of each name, and the contents of the objects; objects from `next` on do not exist yet
(`shm_open`, /repo/src/lib/shmem.c:40; `shm_unlink`, /repo/src/nfqlb/cmdShm.c:79). -/
structure Shm where
  name : String → Option Nat
  file : Nat → File
  next : Nat

/-- A command on shared memory, run to its end: `init` (with what it leaves in the file), `activate`/`deactivate` (likewise), and `delete`,
/repo/src/nfqlb/cmdShm.c:34-82, /repo/src/nfqlb/cmdConfig.c:15-121. -/
inductive ShmCmd where
  | init (name : String) (f : File)
  | config (name : String) (f : File)
  | delete (name : String)

/-- `shm_open` with `O_CREAT` makes a new object if the name has none, otherwise the object of the name is written again,
/repo/src/lib/shmem.c:40; `activate` and `deactivate` change the object of the name, /repo/src/nfqlb/cmdConfig.c:32; `delete` takes away
the name, /repo/src/nfqlb/cmdShm.c:79, and an object that somebody has mapped stays. -/
def run (s : Shm) : ShmCmd → Shm
  | .init n f =>
    match s.name n with
    | some i => { s with file := fun k => if k = i then f else s.file k }
    | none =>
      { name := fun m => if m = n then some s.next else s.name m,
        file := fun k => if k = s.next then f else s.file k, next := s.next + 1 }
  | .config n f =>
    match s.name n with
    | some i => { s with file := fun k => if k = i then f else s.file k }
    | none => s
  | .delete n => { s with name := fun m => if m = n then none else s.name m }

/-- Commands one after the other, /repo/src/nfqlb/cmdShm.c:34-82. -/
def runs (s : Shm) (cs : List ShmCmd) : Shm := cs.foldl run s

end Nfqlb.Reinit
