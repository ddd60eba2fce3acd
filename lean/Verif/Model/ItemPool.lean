import Verif.Model.Basic

/-! Model of the item pool /repo/src/lib/itempool.c.

Items are numbered in the order in which they lie in the pool's memory; a pointer to an item is its number, `NULL` is `none`.  The mutex makes each call
atomic, so calls of several threads are a sequence. -/

namespace Nfqlb.Pool

/-- The state of the pointer `pool->mem`: `itemPoolInit` does not set it for a pool without items, /repo/src/lib/itempool.c:42-47. -/
inductive Mem where
  | uninit
  | block
  deriving Repr, DecidableEq

/-- Blocks of memory the pool allocates: the pool itself (/repo/src/lib/itempool.c:69) and the items (:47). -/
inductive Blk where
  | pool
  | items
  deriving Repr, DecidableEq

/-- Calls of `malloc` that succeed and of `free`. /repo/src/lib/itempool.c:47, :69, :73 and :92-93. -/
inductive Ev where
  | malloc (b : Blk)
  | free (b : Blk)
  deriving Repr, DecidableEq

/-- `struct ItemPool` and `struct ItemPoolStats`, /repo/src/lib/itempool.c:23-28 and /repo/src/lib/itempool.h:24-30, with the `next`
pointers (/repo/src/lib/itempool.h:20) of all items. -/
structure Pool where
  size : Nat
  itemSize : Nat
  nFree : Nat
  nAllocatedCalls : Nat
  nRejected : Nat
  free : Option Nat
  next : Nat → Option Nat
  mem : Mem

/-- `sizeof(struct Item)`: two pointers and an `unsigned`, padded, on a 64-bit machine, /repo/src/lib/itempool.h:17-22. -/
def sizeofItem : Nat := 24

/-- Writing a `next` pointer. /repo/src/lib/itempool.c:55 and :135. -/
def setNext (next : Nat → Option Nat) (i : Nat) (x : Option Nat) : Nat → Option Nat := fun j => if j = i then x else next j

/-- The loop that links all items, /repo/src/lib/itempool.c:53-62: after `i` turns the pointers and the head of the free list. -/
def initLoop : Nat → (Nat → Option Nat) × Option Nat
  | 0 => (fun _ => none, none)
  | i + 1 =>
    let (next, free) := initLoop i
    (setNext next i free, some i)

/-- `itemPoolInit` and `itemPoolCreate`, /repo/src/lib/itempool.c:30-77; the arguments `ok1`, `ok2` say whether the calls of `malloc` succeed. Sizes are computed with 32 bits:
if the items do not fit in the memory requested, the loop writes outside of it. The last component lists the calls of `malloc` and `free`. -/
def create (maxItems itemSize : Nat) (ok1 ok2 : Bool) : Res (Option Pool × List Ev) :=
  if ok1 = false then .ok (none, [])
  else if maxItems = 0 then
    .ok (some { size := 0, itemSize := itemSize, nFree := 0, nAllocatedCalls := 0, nRejected := 0, free := none, next := fun _ => none, mem := .uninit },
      [.malloc .pool])
  else
    let real := u32 (sizeofItem + itemSize)
    if ok2 = false then .ok (none, [.malloc .pool, .free .pool])
    else if u32 (maxItems * real) < (maxItems - 1) * real + sizeofItem then .ub
    else
      let (next, free) := initLoop maxItems
      .ok (some { size := maxItems, itemSize := itemSize, nFree := maxItems, nAllocatedCalls := 0, nRejected := 0, free := free, next := next, mem := .block },
        [.malloc .pool, .malloc .items])

/-- `itemPoolDestroy`, /repo/src/lib/itempool.c:79-94, for a pool and without `itemDestroyFn`: `free` of a pointer that was never set is undefined. -/
def destroy (p : Pool) : Res (List Ev) :=
  match p.mem with
  | .uninit => .ub
  | .block => .ok [.free .items, .free .pool]

/-- `itemPoolClearStats`, /repo/src/lib/itempool.c:101-107. -/
def clearStats (p : Pool) : Pool := { p with nAllocatedCalls := 0, nRejected := 0 }

/-- `itemAllocate`, /repo/src/lib/itempool.c:110-124. -/
def allocate (p : Pool) : Pool × Option Nat :=
  let p := { p with nAllocatedCalls := u32 (p.nAllocatedCalls + 1) }
  match p.free with
  | some f => ({ p with free := p.next f, next := setNext p.next f none, nFree := u32 (p.nFree + 4294967295) }, some f)
  | none => ({ p with nRejected := u32 (p.nRejected + 1) }, none)

/-- The loop of `itemFree`, /repo/src/lib/itempool.c:132-138. A list with more elements than the pool has items is circular (or has items
of another pool): the loop is stopped with `hang`. -/
def freeLoop : Nat → Pool → Option Nat → Res Pool
  | _, p, none => .ok p
  | 0, _, some _ => .hang
  | fuel + 1, p, some f =>
    let items := p.next f
    freeLoop fuel { p with next := setNext p.next f p.free, free := some f, nFree := u32 (p.nFree + 1) } items

/-- `itemFree`, /repo/src/lib/itempool.c:126-140. -/
def free (p : Pool) (items : Option Nat) : Res Pool := freeLoop p.size p items

/-- `itemAllocateWithNext`, /repo/src/lib/itempool.c:142-151. -/
def allocateWithNext (p : Pool) (next : Option Nat) : Res (Pool × Option Nat) :=
  match allocate p with
  | (p, some i) => .ok ({ p with next := setNext p.next i next }, some i)
  | (p, none) => do
    let p ← free p next
    return (p, none)

end Nfqlb.Pool
