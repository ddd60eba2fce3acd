import Verif.Model.Maglev

/-! The Maglev tables in (shared) memory: placement (`/repo/src/lib/maglevdyn.c:9-22` and `:53-70`) and the
stores made by `init` (`/repo/src/lib/maglevdyn.c:24-51`, `/repo/src/nfqlb/cmdShm.c:22-32`). -/

namespace Nfqlb.Maglev

/-- `sizeof(struct MagDataDynInternal)`: three `unsigned`, /repo/src/lib/maglevdyn.c:9-13. -/
def headerSize : Nat := 12

/-- The value returned by `magDataDyn_len` for an `M` that is already adjusted,
/repo/src/lib/maglevdyn.c:20-21.  `M * N`, `3 + M * N` and `M + N` are computed in `unsigned`,
the rest in `size_t`, the result is truncated to `unsigned`. -/
def dataLen (M N : Nat) : Nat :=
  u32 (u64 (headerSize + 4 * u32 (3 + u32 (M * N)) + 4 * u32 (M + N)))

/-- The variable `offset` in `magDataDyn_map` when row `i` is placed, /repo/src/lib/maglevdyn.c:58-68
(32-bit wrap-around on each addition). -/
def rowOffset (M : Nat) : Nat → Nat
  | 0 => u32 (headerSize + 4 * M)
  | i + 1 => u32 (rowOffset M i + 4 * M)

/-- Byte offset of the lookup array, /repo/src/lib/maglevdyn.c:58-59. -/
def lookupOffset : Nat := headerSize

/-- Byte offset of the active array, /repo/src/lib/maglevdyn.c:69. -/
def activeOffset (M N : Nat) : Nat := rowOffset M N

/-- A region in memory: byte offset and size. The parts of the memory in /repo/src/lib/maglevdyn.c:53-70. -/
structure Region where
  off : Nat
  size : Nat
  deriving Repr, DecidableEq

/-- The regions accessed through `struct MagDataDyn`, /repo/src/lib/maglevdyn.c:53-70: header, lookup, the
rows, active. -/
def regions (M N : Nat) : List Region :=
  [⟨0, headerSize⟩, ⟨lookupOffset, 4 * M⟩] ++ (List.range N).map (fun i => ⟨rowOffset M i, 4 * M⟩) ++
    [⟨activeOffset M N, 4 * N⟩]

/-! ### The stores of `init`, on 4-byte words -/

/-- A store of one 4-byte word: (word index, value). E.g. in /repo/src/lib/maglevdyn.c:24-51. -/
abbrev WStore := Nat × Int

/-- Memory: the words of `s->mem`; `none` is outside the file. /repo/src/lib/maglevdyn.c:53-70. -/
abbrev WMem := List Int

/-- Performing stores in order; a store outside the memory is undefined behaviour. E.g. the stores of /repo/src/lib/maglevdyn.c:76-108. -/
def wrun (mem : WMem) : List WStore → Res WMem
  | [] => .ok mem
  | (a, v) :: ss => if a < mem.length then wrun (mem.set a v) ss else .ub

/-- Word index of `lookup[c]`, /repo/src/lib/maglevdyn.c:59. -/
def lookupW (c : Nat) : Nat := lookupOffset / 4 + c
/-- Word index of `permutation[i][j]`, /repo/src/lib/maglevdyn.c:66. -/
def permW (M i j : Nat) : Nat := rowOffset M i / 4 + j
/-- Word index of `active[i]`, /repo/src/lib/maglevdyn.c:69. -/
def activeW (M N i : Nat) : Nat := activeOffset M N / 4 + i

/-- `memset(mem, 0, len)`, /repo/src/lib/maglevdyn.c:32 (word by word). -/
def memsetStores (words : Nat) : List WStore := (List.range words).map (fun a => (a, 0))

/-- Lines 34-36 of /repo/src/lib/maglevdyn.c. -/
def headerStores (M N len : Nat) : List WStore := [(0, (M : Int)), (1, (N : Int)), (2, (len : Int))]

/-- The loop body for target `i`, /repo/src/lib/maglevdyn.c:41-47. -/
def targetStores (M N : Nat) (rnd : Nat → Nat) (i : Nat) : List WStore :=
  (List.range M).map (fun j => (permW M i j, (((randRow M rnd i).getD j 0 : Nat) : Int))) ++ [(activeW M N i, -1)]

/-- The stores of `magDataDyn_populate` when no target is active, /repo/src/lib/maglevdyn.c:78-80. -/
def clearLookupStores (M : Nat) : List WStore := (List.range M).map (fun c => (lookupW c, -1))

/-- All stores of `magDataDyn_init`, /repo/src/lib/maglevdyn.c:32-49, in program order. -/
def initStores (M N : Nat) (rnd : Nat → Nat) : List WStore :=
  memsetStores (dataLen M N / 4) ++ headerStores M N (dataLen M N) ++
    (List.range N).flatMap (targetStores M N rnd) ++ clearLookupStores M

/-- What a process that maps the memory sees, /repo/src/lib/maglevdyn.c:53-70: the `unsigned` header words
(reinterpreted), then the arrays.  Words outside the file cannot be read (SIGBUS/SIGSEGV): `ub`. -/
def mapMem (mem : WMem) : Res Mag :=
  match mem[0]?, mem[1]? with
  | some m, some n =>
    let M := (m % 4294967296).toNat
    let N := (n % 4294967296).toNat
    let rd := fun a => mem[a]?
    match (List.range M).mapM (fun c => rd (lookupW c)),
          (List.range N).mapM (fun i => (List.range M).mapM (fun j =>
            (rd (permW M i j)).map (fun v => (v % 4294967296).toNat))),
          (List.range N).mapM (fun i => rd (activeW M N i)) with
    | some l, some p, some a => .ok { M := M, N := N, lookup := l, perm := p, active := a }
    | _, _, _ => .ub
  | _, _ => .ub

/-- The states of the shared memory file while `init` runs, /repo/src/nfqlb/cmdShm.c:25-31 with
/repo/src/lib/shmem.c:38-47.  The malloc'ed block written to the file first (cmdShm.c:26-28) is not
initialised: arbitrary words `junk`. -/
inductive InitFile (M N : Nat) (rnd : Nat → Nat) (junk : WMem) : Option WMem → Prop where
  /-- The file does not exist or has been truncated to zero by `shm_open(O_TRUNC)`; `mmap` of size 0 fails. -/
  | empty : InitFile M N rnd junk none
  /-- Some of the words have been written by `write_full`. -/
  | writing (k : Nat) (hk : k ≤ junk.length) : InitFile M N rnd junk (some (junk.take k))
  /-- `magDataDyn_init` has performed its first `k` stores. -/
  | storing (k : Nat) (mem : WMem) (h : wrun junk ((initStores M N rnd).take k) = .ok mem) :
      InitFile M N rnd junk (some mem)

end Nfqlb.Maglev
