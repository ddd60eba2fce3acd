import Verif.Model.Packet

/-! Model of the connection tracker /repo/src/lib/conntrack.c.

Pointers to user data are numbers, `NULL` is 0.  The bucket allocator belongs to the user: whether a call of `allocBucket`
succeeds is an input of the insert operation.  `freefn` and `lockfn` are taken to be set (as in fragutils.c); calls of user functions are
recorded as events.  Each operation holds the lock of its bucket, so operations are atomic per bucket; the operations of several threads are a
sequence in which time stamps need not be ordered.  `toNanos` (/repo/src/lib/conntrack.c:59-62) is left out: time stamps are 64-bit numbers. -/

namespace Nfqlb.Ct

/-- `struct ctBucket`, /repo/src/lib/conntrack.c:33-40, without `next` and `mutex`. -/
structure Slot where
  key : Key
  data : Nat
  ttl : Nat
  refered : Nat
  deriving Repr, DecidableEq

/-- A bucket of the hash table and the list of extra buckets linked from it by `next`, /repo/src/lib/conntrack.c:33-40. -/
structure Bucket where
  main : Slot
  chain : List Slot
  deriving Repr, DecidableEq

/-- Why `freefn` was called (not visible to the user; used to state properties). The calls are in /repo/src/lib/conntrack.c:71-72, :84-85, :107-108, :241-242 and :252-253. -/
inductive Why where
  | gc
  | removed
  deriving Repr, DecidableEq

/-- Calls of the user's functions. `freefn`, `lockfn`, `allocBucket` and `freeBucket`, /repo/src/lib/conntrack.c:43-46. -/
inductive Ev where
  | free (v : Nat) (why : Why)
  | freeBucket
  | alloc (ok : Bool)
  | lock (v : Nat)
  deriving Repr, DecidableEq

/-- The counters of `struct ctStats`, /repo/src/lib/conntrack.h:62-71 (32 bits). -/
structure Stats where
  active : Nat
  collisions : Nat
  inserts : Nat
  rejectedInserts : Nat
  lookups : Nat
  objGC : Nat
  deriving Repr, DecidableEq

/-- `struct ct`, /repo/src/lib/conntrack.c:41-51: size of the table, ttl, counters and buckets. -/
structure Ct where
  size : Nat
  ttl : Nat
  stats : Stats
  buckets : List Bucket
  deriving Repr, DecidableEq

/-- `nowNanos - b->refered` on `uint64_t`, /repo/src/lib/conntrack.c:70, :82 and :106. -/
def sub64 (a b : Nat) : Nat := (a + 2 ^ 64 - b) % 2 ^ 64

/-- `(nowNanos - b->refered) > b->ttl`, /repo/src/lib/conntrack.c:70, :82 and :106. -/
def stale (s : Slot) (now : Nat) : Bool := decide (sub64 now s.refered > s.ttl)

/-- `ATOMIC_INC` of a counter by `n`, /repo/src/lib/conntrack.c:25. -/
def inc (x n : Nat) : Nat := u32 (x + n)

/-- Collecting a stale main bucket, /repo/src/lib/conntrack.c:70-75 and :106-111. -/
def gcMain (now : Nat) (m : Slot) : Slot × List Ev × Nat :=
  if m.data ≠ 0 ∧ stale m now = true then ({ m with data := 0 }, [.free m.data .gc], 1) else (m, [], 0)

/-- Collecting stale extra buckets, /repo/src/lib/conntrack.c:79-93; the last component counts the increments of `objGC`. -/
def gcChain (now : Nat) : List Slot → List Slot × List Ev × Nat
  | [] => ([], [], 0)
  | s :: r =>
    let (r', e, n) := gcChain now r
    if stale s now then (r', (if s.data ≠ 0 then [.free s.data .gc] else []) ++ [.freeBucket] ++ e, n + 1) else (s :: r', e, n)

/-- `bucketGC`, /repo/src/lib/conntrack.c:66-95: the bucket afterwards, the events, the increments of `objGC`, and the result. -/
def bucketGC (b : Bucket) (now : Nat) : Bucket × List Ev × Nat × Nat :=
  let (m, e1, n1) := gcMain now b.main
  let (c, e2, n2) := gcChain now b.chain
  ({ main := m, chain := c }, e1 ++ e2, n1 + n2, (if m.data ≠ 0 then 1 else 0) + c.length)

/-- `ctLookupBucket` on the bucket found, /repo/src/lib/conntrack.c:105-119. -/
def prepare (b : Bucket) (now : Nat) : Bucket × List Ev × Nat :=
  let (m, e1, n1) := gcMain now b.main
  let b1 := { b with main := m }
  if b1.chain ≠ [] then
    let (b2, e2, n2, _) := bucketGC b1 now
    (b2, e1 ++ e2, n1 + n2)
  else (b1, e1, n1)

/-- `hash % ct->stats->size`, /repo/src/lib/conntrack.c:101-102 (modulo 0 is handled by `bucketOf`). -/
def slotOf (size : Nat) (k : Key) : Nat := djb2 k.bytes % size

/-- Finding the bucket, /repo/src/lib/conntrack.c:101-103: division by zero and access outside the table are undefined. -/
def bucketOf (ct : Ct) (k : Key) : Res Bucket :=
  if ct.size = 0 then .ub
  else match ct.buckets[slotOf ct.size k]? with
    | some b => .ok b
    | none => .ub

/-- Writing the bucket back. The code has a pointer to it, /repo/src/lib/conntrack.c:98-120. -/
def setBucket (ct : Ct) (k : Key) (b : Bucket) : Ct := { ct with buckets := ct.buckets.set (slotOf ct.size k) b }

/-- `b->data != NULL && keyEqual(key, &b->key) == 0`, /repo/src/lib/conntrack.c:167 and :191-193. -/
def hit (k : Key) (s : Slot) : Bool := decide (s.data ≠ 0 ∧ s.key = k)

/-- The loops over the extra buckets that set `refered` of the entry found, /repo/src/lib/conntrack.c:166-174 and :190-198. -/
def touchChain (now : Nat) (k : Key) : List Slot → Option (List Slot × Nat)
  | [] => none
  | s :: r =>
    if hit k s then some ({ s with refered := now } :: r, s.data)
    else match touchChain now k r with
      | some (r', v) => some (s :: r', v)
      | none => none

/-- The same loops started at the main bucket. /repo/src/lib/conntrack.c:159-177. -/
def touch (now : Nat) (k : Key) (b : Bucket) : Option (Bucket × Nat) :=
  if hit k b.main then some ({ b with main := { b.main with refered := now } }, b.main.data)
  else match touchChain now k b.chain with
    | some (c, v) => some ({ b with chain := c }, v)
    | none => none

/-- `ctCreate`, /repo/src/lib/conntrack.c:122-151 (memory for the table is assumed to be available; the buckets are zeroed). -/
def create (size ttl : Nat) : Ct :=
  { size := size, ttl := ttl,
    stats := { active := 0, collisions := 0, inserts := 0, rejectedInserts := 0, lookups := 0, objGC := 0 },
    buckets := List.replicate size { main := { key := Key.zero, data := 0, ttl := 0, refered := 0 }, chain := [] } }

/-- `ctLookup`, /repo/src/lib/conntrack.c:159-177. -/
def lookup (ct : Ct) (now : Nat) (k : Key) : Res (Ct × Nat × List Ev) := do
  let b ← bucketOf ct k
  let (b, ev, n) := prepare b now
  let ct := { ct with stats := { ct.stats with objGC := inc ct.stats.objGC n, lookups := inc ct.stats.lookups 1 } }
  match touch now k b with
  | some (b, v) => return (setBucket ct k b, v, ev ++ [.lock v])
  | none => return (setBucket ct k b, 0, ev)

/-- `ctInsertWithTTL`, /repo/src/lib/conntrack.c:178-228. `allocOk`: would a call of `allocBucket` succeed. -/
def insertTTL (ct : Ct) (now : Nat) (k : Key) (ttl data : Nat) (allocOk : Bool) : Res (Ct × Int × List Ev) :=
  if data = 0 then .ok (ct, -1, [])
  else do
    let b ← bucketOf ct k
    let (b, ev, n) := prepare b now
    let ct := { ct with stats := { ct.stats with objGC := inc ct.stats.objGC n, inserts := inc ct.stats.inserts 1 } }
    match touch now k b with
    | some (b, _) => return (setBucket ct k b, 1, ev)
    | none =>
      let new : Slot := { key := k, data := data, ttl := ttl, refered := now }
      if b.main.data = 0 then
        let ct := if b.chain ≠ [] then { ct with stats := { ct.stats with collisions := inc ct.stats.collisions 1 } } else ct
        return (setBucket ct k { b with main := new }, 0, ev)
      else
        let ct := { ct with stats := { ct.stats with collisions := inc ct.stats.collisions 1 } }
        if allocOk then return (setBucket ct k { b with chain := new :: b.chain }, 0, ev ++ [.alloc true])
        else
          let ct := { ct with stats := { ct.stats with rejectedInserts := inc ct.stats.rejectedInserts 1 } }
          return (setBucket ct k b, -1, ev ++ [.alloc false])

/-- `ctInsert`, /repo/src/lib/conntrack.c:229-233. -/
def insert (ct : Ct) (now : Nat) (k : Key) (data : Nat) (allocOk : Bool) : Res (Ct × Int × List Ev) :=
  insertTTL ct now k ct.ttl data allocOk

/-- The loop of `ctRemove` over extra buckets, /repo/src/lib/conntrack.c:247-260. -/
def removeChain (k : Key) : List Slot → List Slot × List Ev
  | [] => ([], [])
  | s :: r =>
    if s.key = k then (r, (if s.data ≠ 0 then [.free s.data .removed] else []) ++ [.freeBucket])
    else
      let (r', e) := removeChain k r
      (s :: r', e)

/-- `ctRemove`, /repo/src/lib/conntrack.c:235-262. -/
def remove (ct : Ct) (now : Nat) (k : Key) : Res (Ct × List Ev) := do
  let b ← bucketOf ct k
  let (b, ev, n) := prepare b now
  let ct := { ct with stats := { ct.stats with objGC := inc ct.stats.objGC n } }
  if b.main.key = k then
    return (setBucket ct k { b with main := { b.main with data := 0 } },
      ev ++ (if b.main.data ≠ 0 then [.free b.main.data .removed] else []))
  else
    let (c, e) := removeChain k b.chain
    return (setBucket ct k { b with chain := c }, ev ++ e)

/-- The loop of `ctStats` and `ctDestroy` over the table, /repo/src/lib/conntrack.c:272-276 and :286-291. -/
def gcAll (now : Nat) : List Bucket → List Bucket × List Ev × Nat × Nat
  | [] => ([], [], 0, 0)
  | b :: r =>
    let (b', e1, n1, a1) := bucketGC b now
    let (r', e2, n2, a2) := gcAll now r
    (b' :: r', e1 ++ e2, n1 + n2, a1 + a2)

/-- `ctStats`, /repo/src/lib/conntrack.c:266-279. -/
def ctStats (ct : Ct) (now : Nat) : Ct × List Ev :=
  let (bs, ev, n, a) := gcAll now ct.buckets
  ({ ct with buckets := bs, stats := { ct.stats with objGC := inc ct.stats.objGC n, active := u32 a } }, ev)

/-- `ctDestroy`, /repo/src/lib/conntrack.c:280-294: collect with the time `UINT64_MAX`, then free the table. -/
def destroy (ct : Ct) : List Ev := (gcAll (2 ^ 64 - 1) ct.buckets).2.1

/-- An operation of a client, with its time stamp. /repo/src/lib/conntrack.c:159-177, /repo/src/lib/conntrack.c:178-228, /repo/src/lib/conntrack.c:235-262 and /repo/src/lib/conntrack.c:266-279. -/
inductive Op where
  | lookup (now : Nat) (k : Key)
  | insert (now : Nat) (k : Key) (ttl data : Nat) (allocOk : Bool)
  | remove (now : Nat) (k : Key)
  | stats (now : Nat)
  deriving Repr, DecidableEq

/-- One operation (a client's call): the result (pointer for lookup, return code for insert, 0 otherwise) and the events. /repo/src/lib/conntrack.c:159-177, /repo/src/lib/conntrack.c:178-228, /repo/src/lib/conntrack.c:235-262 and /repo/src/lib/conntrack.c:266-279. -/
def step (ct : Ct) : Op → Res (Ct × Int × List Ev)
  | .lookup now k => do let (ct, v, e) ← lookup ct now k; return (ct, (v : Int), e)
  | .insert now k ttl data ok => insertTTL ct now k ttl data ok
  | .remove now k => do let (ct, e) ← remove ct now k; return (ct, 0, e)
  | .stats now => let (ct, e) := ctStats ct now; .ok (ct, 0, e)

/-- A sequence of calls: the results and the events, in order. The calls of /repo/src/lib/conntrack.c:159-279, one after the other. -/
def run (ct : Ct) : List Op → Res (Ct × List Int × List Ev)
  | [] => .ok (ct, [], [])
  | o :: os => do
    let (ct1, r, e) ← step ct o
    let (ct2, rs, es) ← run ct1 os
    return (ct2, r :: rs, e ++ es)

end Nfqlb.Ct
