import Verif.Model.CText

/-! Model of /repo/src/lib/rangeset.c. The nodes are in a heap and are linked by pointers, as in the code; a pointer is `none` (NULL) or an address. Access to a node that was freed is
undefined behaviour. `die("OOM")` is not modelled: `calloc` always gives a new node. -/

namespace Nfqlb.RS

/-- `struct Node`, /repo/src/lib/rangeset.c:27-31. -/
structure Node where
  first : Nat
  last : Nat
  left : Option Nat
  right : Option Nat
  deriving Repr, DecidableEq

/-- The heap: the nodes in use, and the address that the next `calloc` (/repo/src/lib/rangeset.c:102) returns. -/
structure Heap where
  node : Nat → Option Node
  next : Nat

/-- `struct RangeSet`, /repo/src/lib/rangeset.c:33-39. -/
structure RangeSet where
  count : Nat
  lowest : Nat
  highest : Nat
  root : Option Nat
  added : Option Nat
  deriving Repr, DecidableEq

/-- Reading `*p` (every `n->` in /repo/src/lib/rangeset.c). -/
def get (h : Heap) (a : Nat) : Res Node :=
  match h.node a with
  | some n => .ok n
  | none => .ub

/-- Assigning to fields of `*p` (every `n->x =` in /repo/src/lib/rangeset.c). -/
def set (h : Heap) (a : Nat) (n : Node) : Heap := { h with node := fun j => if j = a then some n else h.node j }

/-- `free(n)`, /repo/src/lib/rangeset.c:66 and :246. Freeing twice is undefined. -/
def free (h : Heap) (a : Nat) : Res Heap := do
  let _ ← get h a
  return { h with node := fun j => if j = a then none else h.node j }

/-- `rangeSetCreate`, /repo/src/lib/rangeset.c:41-48. -/
def rangeSetCreate : RangeSet := ⟨0, 0, 4294967295, none, none⟩

/-- `rangeSetCreateLimited`, /repo/src/lib/rangeset.c:49-59. -/
def rangeSetCreateLimited (lowest highest : Nat) : Option RangeSet := if lowest ≥ highest then none else some ⟨0, lowest, highest, none, none⟩

/-- `treeFree`, /repo/src/lib/rangeset.c:60-67. `fuel` is more than the number of nodes: a longer path in the tree has a cycle, and the recursion does not end. -/
def treeFree : Nat → Heap → Option Nat → Res Heap
  | _, h, none => .ok h
  | 0, _, some _ => .hang
  | fuel + 1, h, some a => do
    let n ← get h a
    let h ← treeFree fuel h n.left
    let n ← get h a
    let h ← treeFree fuel h n.right
    free h a

/-- `rangeSetDestroy`, /repo/src/lib/rangeset.c:68-75. -/
def rangeSetDestroy (h : Heap) (t : RangeSet) : Res Heap := do
  let h ← treeFree (h.next + 1) h t.root
  treeFree (h.next + 1) h t.added

/-- `isInTree`, /repo/src/lib/rangeset.c:77-86; `fuel` as in `treeFree`. -/
def isInTree (h : Heap) (value : Nat) : Nat → Option Nat → Res Bool
  | _, none => .ok false
  | 0, some _ => .hang
  | fuel + 1, some a => do
    let n ← get h a
    if value < n.first then isInTree h value fuel n.left
    else if value > n.last then isInTree h value fuel n.right
    else return true

/-- `rangeSetIn`, /repo/src/lib/rangeset.c:88-91. -/
def rangeSetIn (h : Heap) (t : RangeSet) (value : Nat) : Res Bool := isInTree h value (h.next + 1) t.root

/-- `rangeSetAdd`, /repo/src/lib/rangeset.c:93-111. The result is the value returned. -/
def rangeSetAdd (h : Heap) (t : RangeSet) (first last : Nat) : Heap × RangeSet × Int :=
  if last < first then (h, t, -1)
  else if t.lowest > 0 ∧ first < t.lowest then (h, t, -1)
  else if t.highest < 4294967295 ∧ last > t.highest then (h, t, -1)
  else
    let a := h.next
    let h := set { h with next := h.next + 1 } a ⟨first, last, t.added, none⟩
    (h, { t with added := some a, count := u32 (t.count + 1) }, 0)

/-- `rangeSetAddOneStr`, /repo/src/lib/rangeset.c:113-129. -/
def rangeSetAddOneStr (h : Heap) (t : RangeSet) (tok : List Char) : Heap × RangeSet × Int :=
  if '-' ∈ tok then
    match CText.scanU tok with
    | some (first, '-' :: r) =>
      match CText.scanU r with
      | some (last, _) => if last < first then (h, t, -1) else rangeSetAdd h t first last
      | none => (h, t, -1)
    | _ => (h, t, -1)
  else
    match CText.scanU tok with
    | some (first, _) => rangeSetAdd h t first first
    | none => (h, t, -1)

/-- The loops /repo/src/lib/rangeset.c:134-139 and :146-151, which are the same for a list of strings. -/
def addToks (h : Heap) (t : RangeSet) : List (List Char) → Heap × RangeSet × Int
  | [] => (h, t, 0)
  | tok :: toks =>
    let (h, t, r) := rangeSetAddOneStr h t tok
    if r ≠ 0 then (h, t, -1) else addToks h t toks

/-- `rangeSetAddStr`, /repo/src/lib/rangeset.c:130-140. `strndupa` takes the first 1024 characters. -/
def rangeSetAddStr (h : Heap) (t : RangeSet) (s : List Char) : Heap × RangeSet × Int := addToks h t (CText.tokens [',', ' '] (s.take 1024))

/-- `rangeSetAddArgv`, /repo/src/lib/rangeset.c:142-152. -/
def rangeSetAddArgv (h : Heap) (t : RangeSet) (argv : Option (List (List Char))) : Heap × RangeSet × Int :=
  match argv with
  | none => (h, t, 0)
  | some l => addToks h t l

/-- `rangeSetSize`, /repo/src/lib/rangeset.c:154-157. -/
def rangeSetSize (t : RangeSet) : Nat := t.count

/-- `insertNode`, /repo/src/lib/rangeset.c:159-174; `fuel` as in `treeFree`. -/
def insertNode : Nat → Heap → Nat → Nat → Res Heap
  | 0, _, _, _ => .hang
  | fuel + 1, h, parent, n => do
    let nn ← get h n
    let p ← get h parent
    if nn.first < p.first then
      match p.left with
      | none =>
        let h := set h n { nn with left := none, right := none }
        let p ← get h parent
        return set h parent { p with left := some n }
      | some l => insertNode fuel h l n
    else
      match p.right with
      | none =>
        let h := set h n { nn with left := none, right := none }
        let p ← get h parent
        return set h parent { p with right := some n }
      | some r => insertNode fuel h r n

/-- `storeNodes`, /repo/src/lib/rangeset.c:177-186: the nodes in the order in which they are stored; `fuel` as in `treeFree`. -/
def storeNodes (h : Heap) : Nat → Option Nat → Res (List Nat)
  | _, none => .ok []
  | 0, some _ => .hang
  | fuel + 1, some a => do
    let n ← get h a
    let l ← storeNodes h fuel n.left
    let r ← storeNodes h fuel n.right
    return l ++ r ++ [a]

/-- /repo/src/lib/rangeset.c:208-212: the middle node is inserted below `parent`, or its pointers are cleared. -/
def place (h : Heap) (parent : Option Nat) (n : Nat) : Res Heap :=
  match parent with
  | some p => insertNode (h.next + 1) h p n
  | none => do
    let nn ← get h n
    return set h n { nn with left := none, right := none }

/-- `insertSorted`, /repo/src/lib/rangeset.c:201-217. The part of the array is a list. `fuel` is at least the length of the list, then the case 0 does not happen with nodes in the list. -/
def insertSorted : Nat → Heap → Option Nat → List Nat → Res (Heap × Option Nat)
  | _, h, _, [] => .ok (h, none)
  | 0, _, _, _ :: _ => .hang
  | fuel + 1, h, parent, x :: xs => do
    let nodes := x :: xs
    let hf := nodes.length / 2
    let n := nodes.getD hf 0
    let h ← place h parent n
    let (h, _) ← insertSorted fuel h (some n) (nodes.take hf)
    let (h, _) ← insertSorted fuel h (some n) (nodes.drop (hf + 1))
    return (h, some n)

/-- The loop that merges ranges, /repo/src/lib/rangeset.c:237-254: `n` is `nodes[i]`, the list is `nodes[i+1..]`. Packing the array is leaving out an element of the list.
The result is the packed array. -/
def mergeLoop (h : Heap) (n : Nat) : List Nat → Res (Heap × List Nat)
  | [] => .ok (h, [n])
  | nextn :: rest => do
    let a ← get h n
    let b ← get h nextn
    if a.last = 4294967295 ∨ u32 (a.last + 1) ≥ b.first then
      let h := if b.last > a.last then set h n { a with last := b.last } else h
      let h ← free h nextn
      mergeLoop h n rest
    else
      let (h, l) ← mergeLoop h nextn rest
      return (h, n :: l)

/-- Every node that `qsort` compares is read, /repo/src/lib/rangeset.c:189-198. -/
def readAll (h : Heap) : List Nat → Res Unit
  | [] => .ok ()
  | a :: l => do
    let _ ← get h a
    readAll h l

/-- What `cmpNodes` compares, /repo/src/lib/rangeset.c:189-198. -/
def keyOf (h : Heap) (a : Nat) : Nat :=
  match h.node a with
  | some n => n.first
  | none => 0

/-- `rangeSetUpdate`, /repo/src/lib/rangeset.c:219-261. `qs` is `qsort`: any function that sorts by a key. The array has room for `count` pointers: storing more, or sorting more than was stored,
is undefined. -/
def rangeSetUpdate (qs : (Nat → Nat) → List Nat → List Nat) (h : Heap) (t : RangeSet) : Res (Heap × RangeSet) :=
  if t.count = 0 then .ok (h, t)
  else do
    let l1 ← storeNodes h (h.next + 1) t.root
    let l2 ← storeNodes h (h.next + 1) t.added
    let nodes := l1 ++ l2
    if nodes.length ≠ t.count then .ub
    else
      readAll h nodes
      match qs (keyOf h) nodes with
      | [] => .ub
      | n :: rest =>
        let (h, nodes) ← mergeLoop h n rest
        let (h, root) ← insertSorted nodes.length h t.root nodes
        return (h, { t with added := none, count := nodes.length, root := root })

/-- `snprintf(nbuf, len, …)` at the position `pos` of a buffer of `size` characters, /repo/src/lib/rangeset.c:275-277: at most `len - 1` characters and a NUL are written.
`out` is the string in the buffer. The result has the position after the whole text, which may be outside the buffer. -/
def emit (size len : Nat) (pos : Nat) (out text : List Char) : Res (Nat × List Char) :=
  if pos + min text.length (len - 1) + 1 > size then .ub else .ok (pos + text.length, out ++ text.take (len - 1))

/-- `printTree`, /repo/src/lib/rangeset.c:263-279; `fuel` as in `treeFree`. `endp - nbuf` is converted to `unsigned`. The result `none` in the pair is the return value NULL. -/
def printTree (h : Heap) (size : Nat) : Nat → Option Nat → Nat → List Char → Res (Option Nat × List Char)
  | _, none, pos, out => .ok (some pos, out)
  | 0, some _, _, _ => .hang
  | fuel + 1, some a, pos, out => do
    let n ← get h a
    let (nbuf, out) ← printTree h size fuel n.left pos out
    match nbuf with
    | none => return (none, out)
    | some pos =>
      let len := if pos ≤ size then u32 (size - pos) else u32 (4294967296 - u32 (pos - size))
      if len < 3 then return (none, out)
      else
        let text := if n.first = n.last then CText.dec n.first ++ [','] else CText.dec n.first ++ ['-'] ++ CText.dec n.last ++ [',']
        let (pos, out) ← emit size len pos out text
        printTree h size fuel n.right pos out

/-- `rangeSetString`, /repo/src/lib/rangeset.c:281-290: the value returned and the string in the buffer, which is of `len` characters. -/
def rangeSetString (h : Heap) (t : RangeSet) (len : Nat) : Res (Int × List Char) :=
  match t.root with
  | none => if len = 0 then .ub else .ok (0, [])
  | some a => do
    let (p, out) ← printTree h len (h.next + 1) (some a) 0 []
    match p with
    | none => return (1, out)
    | some _ => return (0, out)

end Nfqlb.RS
