import Verif.Model.Basic

/-! Model of the reference counting of `struct FragData` by several threads, /repo/src/lib/fragutils.c:72-155 and /repo/src/lib/conntrack.c:97-279.

One step of this model is what one thread does without being interrupted: everything that the connection tracker does with a bucket while its mutex is locked,
or one access to an object or a bucket without the mutex. Keys and buckets are numbers; which bucket a new key gets is arbitrary. Every allocation returns a new number, so that
the use of an object after it was given back is seen (in the code the item may be in use again by then, for another datagram). Time is not in the model: an entry may
expire at any moment. -/

namespace Nfqlb.Race

/-- Where a thread is in `fragDataLookup` and in its callers. /repo/src/lib/fragutils.c:107-155; the callers are /repo/src/lib/fragutils.c:266-309, /repo/src/lib/fragutils.c:311-325 and /repo/src/lib/fragutils.c:327-439. -/
inductive Th where
  /-- before `ctLookup`, /repo/src/lib/fragutils.c:110 -/
  | idle
  /-- in `ctLookup`, the entry was found in the bucket `loc` and the mutex is unlocked, before the return value is read, /repo/src/lib/conntrack.c:171-172;
  `second` if it is the second lookup, /repo/src/lib/fragutils.c:135 -/
  | found (k loc id : Nat) (second : Bool)
  /-- `ctLookup` returned NULL, before `itemAllocate`, /repo/src/lib/fragutils.c:114 -/
  | missed (k : Nat)
  /-- the new object has reference counter 1, before `ctInsert`, :124 -/
  | allocated (k id : Nat)
  /-- `ctInsert` returned 0, before `REFINC`, :127 -/
  | inserted (k loc id : Nat)
  /-- `ctInsert` returned 1, before `fragDataUnlock`, :134 -/
  | lost (k id : Nat)
  /-- before the second `ctLookup`, :135 -/
  | again (k : Nat)
  /-- `ctInsert` returned -1, before `fragDataUnlock`, :150 -/
  | failed (id : Nat)
  /-- `fragDataLookup` returned an object, until `fragDataUnlock`: in `fragInsertFirst` :266-309, `fragGetValue` :311-325, `fragGetValueOrStore` :327-439 -/
  | using (k id : Nat)
  deriving Repr, DecidableEq

/-- An entry of the tracker, `struct ctBucket`, /repo/src/lib/conntrack.c:33-40: in which bucket, for which key, and the object. -/
structure Entry where
  loc : Nat
  key : Nat
  id : Nat
  deriving Repr, DecidableEq

/-- What the threads share: the entries of the tracker, the reference counters, how often each object was given back, the number of the next object,
the objects whose counter was found to be 0 and which are being given back (/repo/src/lib/fragutils.c:83-99). -/
structure St where
  entries : List Entry
  ref : Nat → Int
  freed : Nat → Nat
  next : Nat
  dying : List Nat
  thr : List Th

/-- `n` threads and an empty table, /repo/src/lib/fragutils.c:195-222. -/
def start (n : Nat) : St := ⟨[], fun _ => 0, fun _ => 0, 0, [], List.replicate n .idle⟩

/-- The moves. `i` is the number of the thread. Steps of /repo/src/lib/fragutils.c:72-187 and :266-439. -/
inductive Mv where
  | lookup (i k : Nat)
  | ret (i : Nat)
  | alloc (i : Nat) (ok : Bool)
  | insert (i loc : Nat) (ok : Bool)
  | refinc (i : Nat)
  | unlock (i : Nat)
  | use (i : Nat)
  | remove (i : Nat)
  | expire (e : Entry)
  | release
  deriving Repr, DecidableEq

/-- `REFINC(f->referenceCounter)`, /repo/src/lib/fragutils.c:75 and :127: undefined if the object was given back. -/
def inc (s : St) (id : Nat) : Res St :=
  if s.freed id ≠ 0 then .ub else .ok { s with ref := fun j => if j = id then s.ref id + 1 else s.ref j }

/-- `REFDEC` and the tests in `fragDataUnlock`, /repo/src/lib/fragutils.c:81-83. -/
def dec (s : St) (id : Nat) : Res St :=
  if s.freed id ≠ 0 then .ub
  else
    let s := { s with ref := fun j => if j = id then s.ref id - 1 else s.ref j }
    if s.ref id < 0 then .die
    else if s.ref id = 0 then .ok { s with dying := id :: s.dying }
    else .ok s

/-- The entry for a key, found by the loop /repo/src/lib/conntrack.c:166-174. -/
def find (s : St) (k : Nat) : Option Entry := s.entries.find? (fun e => e.key == k)

/-- Setting what a thread does next. The place in /repo/src/lib/fragutils.c:72-187 and :266-439 where the thread is. -/
def goto (s : St) (i : Nat) (t : Th) : St := { s with thr := s.thr.set i t }

/-- `ctLookup`, /repo/src/lib/conntrack.c:159-176, without the `return b->data`: the counter of an object found is incremented while the bucket is locked. -/
def ctLookup (s : St) (i k : Nat) (second : Bool) (miss : Th) : Res St :=
  match find s k with
  | some e => do
    let s ← inc s e.id
    return goto s i (.found k e.loc e.id second)
  | none => .ok (goto s i miss)

/-- One move of a thread; a move that is not possible does nothing.
`lookup`: as above. `ret`: `return b->data`, /repo/src/lib/conntrack.c:172, reads the bucket without the mutex. `alloc`: /repo/src/lib/fragutils.c:114-121.
`insert`: `ctInsert`, /repo/src/lib/conntrack.c:178-228 with a bucket that is not in use. `refinc`: /repo/src/lib/fragutils.c:127. `unlock`: `fragDataUnlock`, :78-83.
`use`: any access to the object while a thread has it. `remove`: `ctRemove`, /repo/src/lib/conntrack.c:235-262, called in /repo/src/lib/fragutils.c:342. `expire`: an entry is collected
in any operation of the tracker, /repo/src/lib/conntrack.c:65-116. `release`: the rest of `fragDataUnlock`, /repo/src/lib/fragutils.c:84-99. -/
def move (s : St) : Mv → Res St
  | .lookup i k =>
    match s.thr[i]? with
    | some .idle => ctLookup s i k false (.missed k)
    | some (.again k') => ctLookup s i k' true .idle
    | _ => .ok s
  | .ret i =>
    match s.thr[i]? with
    | some (.found k loc _ second) =>
      match s.entries.find? (fun e => e.loc == loc) with
      | some e => .ok (goto s i (.using k e.id))
      | none => .ok (goto s i (if second = true then .idle else .missed k))
    | _ => .ok s
  | .alloc i ok =>
    match s.thr[i]? with
    | some (.missed k) =>
      if ok = true then
        .ok (goto { s with next := s.next + 1, ref := fun j => if j = s.next then 1 else s.ref j } i (.allocated k s.next))
      else .ok (goto s i .idle)
    | _ => .ok s
  | .insert i loc ok =>
    match s.thr[i]? with
    | some (.allocated k id) =>
      match find s k with
      | some _ => .ok (goto s i (.lost k id))
      | none =>
        if ok = true ∧ (∀ e ∈ s.entries, e.loc ≠ loc) then .ok (goto { s with entries := ⟨loc, k, id⟩ :: s.entries } i (.inserted k loc id))
        else .ok (goto s i (.failed id))
    | _ => .ok s
  | .refinc i =>
    match s.thr[i]? with
    | some (.inserted k _ id) => do
      let s ← inc s id
      return goto s i (.using k id)
    | _ => .ok s
  | .unlock i =>
    match s.thr[i]? with
    | some (.using _ id) => do
      let s ← dec s id
      return goto s i .idle
    | some (.lost k id) => do
      let s ← dec s id
      return goto s i (.again k)
    | some (.failed id) => do
      let s ← dec s id
      return goto s i .idle
    | _ => .ok s
  | .use i =>
    match s.thr[i]? with
    | some (.using _ id) => if s.freed id ≠ 0 then .ub else .ok s
    | _ => .ok s
  | .remove i =>
    match s.thr[i]? with
    | some (.using k _) =>
      match find s k with
      | some e => dec { s with entries := s.entries.erase e } e.id
      | none => .ok s
    | _ => .ok s
  | .expire e => if e ∈ s.entries then dec { s with entries := s.entries.erase e } e.id else .ok s
  | .release =>
    match s.dying with
    | [] => .ok s
    | id :: r => .ok { s with dying := r, freed := fun j => if j = id then s.freed id + 1 else s.freed j }

/-- Any interleaving of the moves of the threads. The threads are made in /repo/src/nfqlb/cmdLb.c:237-241. -/
def runMoves (s : St) : List Mv → Res St
  | [] => .ok s
  | m :: ms => do
    let s ← move s m
    runMoves s ms

end Nfqlb.Race
