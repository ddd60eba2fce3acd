import Verif.Model.Conntrack

/-! Model of the fragment table /repo/src/lib/fragutils.c, for calls that do not overlap in time (for overlapping calls see `Verif/Model/FragRace.lean`).

Pointers to `struct FragData` are numbers from 1 on, `NULL` is 0.  The pools are modelled by what is free in them; that a pool behaves like this is proved in
`Verif/Proof/ItemPool.lean`.  The reassembler is arbitrary: whether its `new` returns something and what its `handleFragment` returns are
inputs of the operations.  The contents of a stored fragment are a number. -/

namespace Nfqlb.Frag

open Nfqlb.Ct (Ct Ev)

/-- `enum FragDataState`, /repo/src/lib/fragutils.c:56-60. -/
inductive FState where
  | hashValid
  | storing
  | poisoned
  deriving Repr, DecidableEq

/-- `struct FragData`, /repo/src/lib/fragutils.c:61-68; `asm`: `assemblyData` is not NULL. -/
structure Obj where
  ref : Int
  state : FState
  value : Int
  stored : List Nat
  asm : Bool
  deriving Repr, DecidableEq

/-- `struct FragTable`, /repo/src/lib/fragutils.c:40-48, with the counters of `struct fragStats`, /repo/src/lib/fragutils.h, that change, and the memory of all
`FragData` objects. `gone` is not in the code: the fragments for which `fragsDiscarded` was incremented, used to state properties. -/
structure Ft where
  ct : Ct
  objs : Nat → Obj
  freeObjs : List Nat
  bucketsFree : Nat
  fragsFree : Nat
  mtu : Nat
  reass : Bool
  bucketsAllocated : Nat
  bucketsUsed : Nat
  fragsDiscarded : Nat
  fragsAllocated : Nat
  reAssembled : Nat
  gone : List Nat

/-- Writing an object. `struct FragData`, /repo/src/lib/fragutils.c:61-68. -/
def setObj (ft : Ft) (v : Nat) (o : Obj) : Ft := { ft with objs := fun w => if w = v then o else ft.objs w }

/-- `MS`, /repo/src/lib/fragutils.c:19. -/
def ms : Nat := 1000000

/-- `fragTableCreate`, /repo/src/lib/fragutils.c:195-222 (memory is assumed to be available), and `fragRegisterFragReassembler` (:253-257) if `reass`, which is called
right after it. `timeoutMillis * MS` and `hsize + maxBuckets` are computed with 32 bits. -/
def create (hsize maxBuckets maxFragments mtu timeoutMillis : Nat) (reass : Bool) : Ft where
  ct := Ct.create hsize (u32 (timeoutMillis * ms))
  objs := fun _ => ⟨0, .hashValid, 0, [], false⟩
  freeObjs := List.range' 1 (u32 (hsize + maxBuckets))
  bucketsFree := maxBuckets
  fragsFree := maxFragments
  mtu := mtu
  reass := reass
  bucketsAllocated := 0
  bucketsUsed := 0
  fragsDiscarded := 0
  fragsAllocated := 0
  reAssembled := 0
  gone := []

/-- The loops that count the fragments discarded, and `itemFree` of them, /repo/src/lib/fragutils.c:91-93, :303-305 and :389-391. -/
def discard (ft : Ft) (frags : List Nat) : Ft :=
  { ft with
    fragsDiscarded := u32 (ft.fragsDiscarded + frags.length)
    fragsFree := ft.fragsFree + frags.length
    gone := frags ++ ft.gone }

/-- `fragDataLock`, /repo/src/lib/fragutils.c:72-76. -/
def lock (ft : Ft) (v : Nat) : Ft := setObj ft v { ft.objs v with ref := (ft.objs v).ref + 1 }

/-- `fragDataUnlock`, /repo/src/lib/fragutils.c:78-100. `reassembler->destroy` (:94-96) has no effect here. -/
def unlock (ft : Ft) (v : Nat) : Ft :=
  let ft := setObj ft v { ft.objs v with ref := (ft.objs v).ref - 1 }
  if (ft.objs v).ref = 0 then
    let ft := discard ft (ft.objs v).stored
    { ft with freeObjs := v :: ft.freeObjs }
  else ft

/-- The functions that the table passes to `ctCreate`: `fragDataUnlock`, `fragDataLock`, `bucketPoolAllocate` (/repo/src/lib/fragutils.c:167-176) and
`bucketPoolFree` (:177-183). -/
def onEvent (ft : Ft) : Ev → Ft
  | .free v _ => unlock ft v
  | .lock v => lock ft v
  | .alloc true =>
    { ft with
      bucketsFree := ft.bucketsFree - 1
      bucketsAllocated := u32 (ft.bucketsAllocated + 1)
      bucketsUsed := u32 (ft.bucketsUsed + 1) }
  | .alloc false => ft
  | .freeBucket =>
    { ft with
      bucketsFree := ft.bucketsFree + 1
      bucketsUsed := u32 (ft.bucketsUsed + 4294967295) }

/-- All calls of these functions in one operation of the connection tracker, in order. They do not change the tracker. /repo/src/lib/fragutils.c:72-76, /repo/src/lib/fragutils.c:78-100 and /repo/src/lib/fragutils.c:177-183. -/
def onEvents (ft : Ft) (evs : List Ev) : Ft := evs.foldl onEvent ft

/-- `ctLookup(ft->ct, now, key)`, /repo/src/lib/fragutils.c:110, :135 and :315. -/
def ctLookup (ft : Ft) (now : Nat) (k : Key) : Res (Ft × Nat) := do
  let (ct, v, evs) ← Ct.lookup ft.ct now k
  return (onEvents { ft with ct := ct } evs, v)

/-- Would `bucketPoolAllocate` succeed if it was called in `ctInsert`: `ctLookupBucket` may have freed buckets before. /repo/src/lib/fragutils.c:167-176, called from /repo/src/lib/conntrack.c:178-228. -/
def bucketRoom (ft : Ft) (now : Nat) (k : Key) : Res Bool := do
  let b ← Ct.bucketOf ft.ct k
  return decide (0 < ft.bucketsFree + (Ct.prepare b now).2.1.count .freeBucket)

/-- `ctInsert(ft->ct, now, key, f)`, /repo/src/lib/fragutils.c:124. -/
def ctInsert (ft : Ft) (now : Nat) (k : Key) (v : Nat) : Res (Ft × Int) := do
  let room ← bucketRoom ft now k
  let (ct, rc, evs) ← Ct.insert ft.ct now k v room
  return (onEvents { ft with ct := ct } evs, rc)

/-- `ctRemove(ft->ct, now, key)`, /repo/src/lib/fragutils.c:342. -/
def ctRemove (ft : Ft) (now : Nat) (k : Key) : Res Ft := do
  let (ct, evs) ← Ct.remove ft.ct now k
  return onEvents { ft with ct := ct } evs

/-- `fragDataLookup`, /repo/src/lib/fragutils.c:107-155. `newOk`: would the `new` of the reassembler return an object. -/
def fragDataLookup (ft : Ft) (now : Nat) (k : Key) (newOk : Bool) : Res (Ft × Nat) := do
  let (ft, v) ← ctLookup ft now k
  if v ≠ 0 then return (ft, v)
  else
    match ft.freeObjs with
    | [] => return (ft, 0)
    | f :: rest =>
      let ft := { ft with freeObjs := rest }
      let ft := setObj ft f { ft.objs f with ref := 1, state := .storing, stored := [], asm := if ft.reass then newOk else (ft.objs f).asm }
      let (ft, rc) ← ctInsert ft now k f
      if rc = 0 then return (lock ft f, f)
      else if rc = 1 then ctLookup (unlock ft f) now k
      else return (unlock ft f, 0)

/-- `fragInsertFirst`, /repo/src/lib/fragutils.c:266-309, with `storedFragments` not NULL: return code and the fragments returned. -/
def fragInsertFirst (ft : Ft) (now : Nat) (k : Key) (value : Int) (newOk : Bool) : Res (Ft × Int × List Nat) := do
  let (ft, f) ← fragDataLookup ft now k newOk
  if f = 0 then return (ft, -1, [])
  else if (ft.objs f).state ≠ .storing then return (unlock ft f, -1, [])
  else
    let stored := (ft.objs f).stored
    let ft := setObj ft f { ft.objs f with value := value, state := .hashValid, stored := [] }
    return (unlock ft f, 0, stored)

/-- `fragGetValue`, /repo/src/lib/fragutils.c:311-325: return code and the value written. -/
def fragGetValue (ft : Ft) (now : Nat) (k : Key) : Res (Ft × Int × Option Int) := do
  let (ft, f) ← ctLookup ft now k
  if f = 0 then return (ft, -1, none)
  else if (ft.objs f).state = .hashValid then return (unlock ft f, 0, some (ft.objs f).value)
  else return (unlock ft f, -1, none)

/-- The part of `fragGetValueOrStore` for the reassembler, /repo/src/lib/fragutils.c:337-354; `rcAsm` is what its `handleFragment` would return. -/
def reassemble (ft : Ft) (now : Nat) (k : Key) (f : Nat) (rcAsm : Int) : Res Ft :=
  if ft.reass = true ∧ (ft.objs f).asm = true then
    if (ft.objs f).state = .hashValid then
      if rcAsm = 0 then do
        let ft ← ctRemove ft now k
        return { ft with reAssembled := u32 (ft.reAssembled + 1) }
      else .ok ft
    else .ok (setObj ft f { ft.objs f with asm := false })
  else .ok ft

/-- `fragGetValueOrStore`, /repo/src/lib/fragutils.c:327-439: return code and the value written. The second test of the state (:406-427) finds what the first one found. -/
def fragGetValueOrStore (ft : Ft) (now : Nat) (k : Key) (frag len : Nat) (newOk : Bool) (rcAsm : Int) : Res (Ft × Int × Option Int) := do
  let (ft, f) ← fragDataLookup ft now k newOk
  if f = 0 then return (ft, -1, none)
  else
    let ft ← reassemble ft now k f rcAsm
    match (ft.objs f).state with
    | .hashValid => return (unlock ft f, 0, some (ft.objs f).value)
    | .poisoned => return (unlock ft f, -1, none)
    | .storing =>
      if ft.mtu < len then return (unlock ft f, -1, none)
      else if ft.fragsFree = 0 then
        let stored := (ft.objs f).stored
        let ft := setObj ft f { ft.objs f with state := .poisoned, stored := [] }
        return (discard (unlock ft f) stored, -1, none)
      else
        let ft := { ft with fragsFree := ft.fragsFree - 1 }
        let ft := setObj ft f { ft.objs f with stored := frag :: (ft.objs f).stored }
        return (unlock { ft with fragsAllocated := u32 (ft.fragsAllocated + 1) } f, 1, none)

/-- `handleFirstFragment`, /repo/src/lib/fragutils.c:453-474: return code and what is injected. `inject`: `injectFragmentFn` is set. -/
def handleFirstFragment (ft : Ft) (now : Nat) (k : Key) (value : Int) (newOk inject : Bool) : Res (Ft × Int × List Nat) := do
  let (ft, rc, stored) ← fragInsertFirst ft now k value newOk
  return ({ ft with fragsFree := ft.fragsFree + stored.length }, rc, if rc = 0 ∧ inject = true then stored else [])

/-- `fragGetStats`, /repo/src/lib/fragutils.c:480-491: collects what has expired. -/
def fragGetStats (ft : Ft) (now : Nat) : Ft :=
  let (ct, evs) := Ct.ctStats ft.ct now
  onEvents { ft with ct := ct } evs

/-- The operations of the packet handlers, /repo/src/nfqlb/cmdLb.c:82 and :105, and of the statistics. -/
inductive Op where
  | first (now : Nat) (k : Key) (value : Int) (newOk : Bool)
  | get (now : Nat) (k : Key)
  | frag (now : Nat) (k : Key) (frag len : Nat) (newOk : Bool) (rcAsm : Int)
  | stats (now : Nat)
  deriving Repr, DecidableEq

/-- What an operation returns: the code, the value if any, and the fragments injected. /repo/src/lib/fragutils.c:266-309, /repo/src/lib/fragutils.c:327-439 and /repo/src/lib/fragutils.c:453-474. -/
structure Out where
  rc : Int
  value : Option Int
  injected : List Nat
  deriving Repr, DecidableEq

/-- One operation, with a function for injecting. /repo/src/lib/fragutils.c:266-309, /repo/src/lib/fragutils.c:311-325, /repo/src/lib/fragutils.c:327-439, /repo/src/lib/fragutils.c:453-474 and /repo/src/lib/fragutils.c:480-510. -/
def step (ft : Ft) : Op → Res (Ft × Out)
  | .first now k value newOk => do
    let (ft, rc, inj) ← handleFirstFragment ft now k value newOk true
    return (ft, ⟨rc, none, inj⟩)
  | .get now k => do
    let (ft, rc, v) ← fragGetValue ft now k
    return (ft, ⟨rc, v, []⟩)
  | .frag now k frag len newOk rcAsm => do
    let (ft, rc, v) ← fragGetValueOrStore ft now k frag len newOk rcAsm
    return (ft, ⟨rc, v, []⟩)
  | .stats now => .ok (fragGetStats ft now, ⟨0, none, []⟩)

/-- A sequence of operations. The calls of /repo/src/lib/fragutils.c:266-510, one after the other. -/
def run (ft : Ft) : List Op → Res (Ft × List Out)
  | [] => .ok (ft, [])
  | o :: os => do
    let (ft, r) ← step ft o
    let (ft, rs) ← run ft os
    return (ft, r :: rs)

end Nfqlb.Frag
