import Verif.Model.Packet

/-! Model of the reassembler /repo/src/lib/reassembler.c.

A list of `struct Item` is the list of the contents of its items; the pool is the list of the *old* contents of its free items, the next one to be
allocated first (`itemAllocate` takes from, `itemFree` puts at the head of the free list, /repo/src/lib/itempool.c:110-140, and neither touches the contents).
That the linked lists of a pool are lists is proved in `Verif/Proof/ItemPool.lean`. -/

namespace Nfqlb.Ra

/-- `struct hole`, /repo/src/lib/reassembler.c:37-40. -/
structure Hole where
  first : Nat
  last : Nat
  deriving Repr, DecidableEq

/-- The free items of `obj.holePool` with what their memory contains, /repo/src/lib/reassembler.c:43-46. -/
abbrev HolePool := List Hole

/-- `INFINITY`, /repo/src/lib/reassembler.c:36. -/
def infinity : Nat := 4294967295

/-- What `raNew` returns, if not NULL: the (unused) contents of the head-item and the holes linked to it, /repo/src/lib/reassembler.c:58-61. -/
structure Reass where
  head : Hole
  holes : List Hole
  deriving Repr, DecidableEq

/-- `raNew`, /repo/src/lib/reassembler.c:48-62; `itemAllocateWithNext` gives the hole back if there is no second item, /repo/src/lib/itempool.c:142-151. -/
def raNew (pool : HolePool) : Option Reass × HolePool :=
  match pool with
  | [] => (none, [])
  | [_] => (none, [⟨0, infinity⟩])
  | _ :: h :: pool => (some ⟨h, [⟨0, infinity⟩]⟩, pool)

/-- `raDestoy`, /repo/src/lib/reassembler.c:64-70: `itemFree` of the list, the head-item first. -/
def raDestroy (r : Option Reass) (pool : HolePool) : HolePool :=
  match r with
  | none => pool
  | some r => r.holes.reverse ++ r.head :: pool

/-- The loop of `handleFragment`, /repo/src/lib/reassembler.c:226-284, from the point where `item` is the first element of the list (:239).
`del` is `itemDeleted`: it is 1 when an item before was unlinked, and it is *not* set to 0 when the next item does not overlap (:243-247), so this item
is unlinked also (:228-234).  The result is what remains of the list, and the pool.  Without a free item `newItem` is NULL and used (:270-273).
After the hole was split in two the *old* item gets the upper part (:280-282), and the new item is visited with its old contents. -/
def loop (ff fl : Nat) (more : Bool) : Nat → Bool → HolePool → List Hole → Res (List Hole × HolePool)
  | 0, _, _, _ => .hang
  | _ + 1, _, pool, [] => .ok ([], pool)
  | fuel + 1, del, pool, h :: rest =>
    if h.last < ff ∨ fl < h.first then
      if del then loop ff fl more fuel true (h :: pool) rest
      else do
        let (l, p) ← loop ff fl more fuel false pool rest
        return (h :: l, p)
    else if h.first < ff then
      if fl < h.last ∧ more = true then
        match pool with
        | [] => .ub
        | s :: pool => do
          let (l, p) ← loop ff fl more fuel false pool (s :: rest)
          return (⟨u32 (fl + 1), h.last⟩ :: l, p)
      else do
        let (l, p) ← loop ff fl more fuel false pool rest
        return (⟨h.first, ff - 1⟩ :: l, p)
    else if fl < h.last ∧ more = true then do
      let (l, p) ← loop ff fl more fuel false pool rest
      return (⟨u32 (fl + 1), h.last⟩ :: l, p)
    else loop ff fl more fuel true (h :: pool) rest

/-- `handleFragment`, /repo/src/lib/reassembler.c:213-287: return code (0 all received, 1 more needed), the list and the pool.
The fuel is a number of turns that the loop never exceeds (theorem `C28_terminates`). -/
def handleFragment (holes : List Hole) (fragmentFirst len : Nat) (more : Bool) (pool : HolePool) : Res (Nat × List Hole × HolePool) :=
  if len = 0 then .ok (1, holes, pool)
  else do
    let (l, p) ← loop fragmentFirst (u32 (fragmentFirst + len + 4294967295)) more (2 * holes.length + pool.length + 1) false pool holes
    return (if l = [] then 0 else 1, l, p)

/-- The walk over the extension headers, /repo/src/lib/reassembler.c:99-107; `pos` is `hdr`. `none`: `return -1`. The step is at least 8 bytes, the
fuel is the length of the packet. -/
def extLoop (data : Packet) : Nat → UInt8 → Nat → Res (Option (UInt8 × Nat))
  | 0, _, _ => .hang
  | fuel + 1, htype, pos =>
    if isExtensionHeader htype && htype != 44 then
      if !inBounds pos 2 data.length then .ok none
      else do
        let nxt ← rd data pos
        let len ← rd data (pos + 1)
        if len = 0 then .ok none
        else extLoop data fuel nxt (pos + len.toNat * 8)
    else .ok (some (htype, pos))

/-- `raHandleFragment` without the call of `handleFragment`, /repo/src/lib/reassembler.c:79-122: either a return code or the arguments
of the call: `fragmentFirst`, `len`, `morefragments`. -/
def parseFragment (data : Packet) : Res (Int ⊕ Nat × Nat × Bool) := do
  let b0 ← rd data 0
  if b0.toNat / 16 = 4 then
    if !inBounds 0 20 data.length then .ok (.inl (-1))
    else do
      let totLen ← rd16 data 2
      if data.length ≠ ntohs totLen then .ok (.inl (-1))
      else do
        let fo ← rd16 data 6
        let fragOff := ntohs fo
        return .inr (fragOff % 8192 * 8, u32 (data.length + 4294967296 - b0.toNat % 16 * 4), decide (fragOff / 8192 % 2 = 1))
  else if b0.toNat / 16 = 6 then
    let nxt ← rd data 6
    match ← extLoop data (data.length + 1) nxt 40 with
    | none => .ok (.inl (-1))
    | some (htype, pos) =>
      if htype = 44 then
        if !inBounds pos 8 data.length then .ok (.inl (-1))
        else do
          let offlg ← rd16 data (pos + 2)
          return .inr (ntohs offlg / 8 * 8, u32 (data.length - pos - 8), decide (offlg.2.toNat % 2 = 1))
      else .ok (.inl 1)
  else .ok (.inl 1)

/-- `raHandleFragment`, /repo/src/lib/reassembler.c:72-123. -/
def raHandleFragment (r : Option Reass) (data : Packet) (pool : HolePool) : Res (Int × Option Reass × HolePool) :=
  match r with
  | none => .ok (1, none, pool)
  | some r => do
    match ← parseFragment data with
    | .inl rc => .ok (rc, some r, pool)
    | .inr (first, len, more) =>
      let (rc, l, p) ← handleFragment r.holes first len more pool
      return (rc, some { r with holes := l }, p)

/-- The calls that the fragment table makes, /repo/src/lib/fragutils.c, for all datagrams that it keeps; `i` is the number of the
object in the list of those that exist. -/
inductive Op where
  | new
  | frag (i : Nat) (data : Packet)
  | destroy (i : Nat)
  deriving Repr, DecidableEq

/-- The pool and all objects that were created and not yet destroyed. /repo/src/lib/reassembler.c:48-122. -/
structure State where
  pool : HolePool
  live : List (Option Reass)
  deriving Repr, DecidableEq

/-- One call. /repo/src/lib/reassembler.c:48-62, /repo/src/lib/reassembler.c:72-123 and /repo/src/lib/reassembler.c:64-70. -/
def step (s : State) : Op → Res State
  | .new =>
    let (r, p) := raNew s.pool
    .ok { pool := p, live := r :: s.live }
  | .frag i data =>
    match s.live[i]? with
    | none => .ok s
    | some r => do
      let (_, r, p) ← raHandleFragment r data s.pool
      return { pool := p, live := s.live.set i r }
  | .destroy i =>
    match s.live[i]? with
    | none => .ok s
    | some r => .ok { pool := raDestroy r s.pool, live := s.live.eraseIdx i }

/-- A sequence of calls. /repo/src/lib/reassembler.c:48-122. -/
def run (s : State) : List Op → Res State
  | [] => .ok s
  | o :: os => do
    let s ← step s o
    run s os

end Nfqlb.Ra
