import Verif.Model.Conntrack

/-! A map with time-to-live, the specification of the connection tracker. -/

namespace Nfqlb.Spec

open Nfqlb.Ct (Op Ev)

/-- A stored value: when it was last referenced, and for how long it stays. -/
structure Entry where
  value : Nat
  last : Nat
  ttl : Nat
  deriving Repr, DecidableEq

abbrev TtlMap := Key → Option Entry

/-- The entry for `k` if it was referenced no longer than its ttl ago. -/
def TtlMap.live (m : TtlMap) (now : Nat) (k : Key) : Option Entry :=
  (m k).filter (fun e => decide (now ≤ e.last + e.ttl))

/-- The map with the entry for `k` replaced. -/
def TtlMap.set (m : TtlMap) (k : Key) (e : Option Entry) : TtlMap := fun k' => if k' = k then e else m k'

def TtlMap.empty : TtlMap := fun _ => none

/-- `slot k` is the place of the hash table that `k` is stored in. An insert needs more room than the table itself if another live key has the same place. -/
inductive MapStep (slot : Key → Nat) (m : TtlMap) : Op → Int → TtlMap → Prop where
  | found {now k e} : m.live now k = some e → MapStep slot m (.lookup now k) (e.value : Int) (m.set k (some { e with last := now }))
  | notFound {now k} : m.live now k = none → MapStep slot m (.lookup now k) 0 m
  | exists {now k ttl data ok e} : data ≠ 0 → m.live now k = some e →
      MapStep slot m (.insert now k ttl data ok) 1 (m.set k (some { e with last := now }))
  | inserted {now k ttl data ok} : data ≠ 0 → m.live now k = none →
      MapStep slot m (.insert now k ttl data ok) 0 (m.set k (some { value := data, last := now, ttl := ttl }))
  | noRoom {now k ttl data k' e'} : data ≠ 0 → m.live now k = none → k' ≠ k → slot k' = slot k → m.live now k' = some e' →
      MapStep slot m (.insert now k ttl data false) (-1) m
  | null {now k ttl ok} : MapStep slot m (.insert now k ttl 0 ok) (-1) m
  | removed {now k} : MapStep slot m (.remove now k) 0 (m.set k none)
  | stats {now} : MapStep slot m (.stats now) 0 m

/-- Runs of the specification. -/
inductive MapRun (slot : Key → Nat) : TtlMap → List Op → List Int → TtlMap → Prop where
  | nil {m} : MapRun slot m [] [] m
  | cons {m o r m1 os rs m2} : MapStep slot m o r m1 → MapRun slot m1 os rs m2 → MapRun slot m (o :: os) (r :: rs) m2

/-- The operation inserts a new key into a place where another live key is stored. -/
def Collides (slot : Key → Nat) (m : TtlMap) : Op → Prop
  | .insert now k _ data _ => data ≠ 0 ∧ m.live now k = none ∧ ∃ k', k' ≠ k ∧ slot k' = slot k ∧ m.live now k' ≠ none
  | _ => False

/-- Runs of the specification in which `n` operations collide. -/
inductive CollRun (slot : Key → Nat) : TtlMap → List Op → List Int → TtlMap → Nat → Prop where
  | nil {m} : CollRun slot m [] [] m 0
  | yes {m o r m1 os rs m2 n} : MapStep slot m o r m1 → Collides slot m o → CollRun slot m1 os rs m2 n →
      CollRun slot m (o :: os) (r :: rs) m2 (n + 1)
  | no {m o r m1 os rs m2 n} : MapStep slot m o r m1 → ¬ Collides slot m o → CollRun slot m1 os rs m2 n →
      CollRun slot m (o :: os) (r :: rs) m2 n

/-- The time stamp of an operation. -/
def opTime : Op → Nat
  | .lookup now _ => now
  | .insert now _ _ _ _ => now
  | .remove now _ => now
  | .stats now => now

/-- The time stamps do not decrease, starting from `t`, and fit in 64 bits. -/
def TimesFrom : Nat → List Op → Prop
  | _, [] => True
  | t, o :: os => t ≤ opTime o ∧ opTime o < 2 ^ 64 ∧ TimesFrom (opTime o) os

/-- How often the free function was called for the value `v`. -/
def frees (v : Nat) (ev : List Ev) : Nat := ev.countP (fun e => match e with | .free w _ => decide (w = v) | _ => false)

/-- How often an insert of the value `v` was accepted. -/
def accepted (v : Nat) : List Op → List Int → Nat
  | .insert _ _ _ data _ :: os, r :: rs => (if data = v ∧ r = 0 then 1 else 0) + accepted v os rs
  | _ :: os, _ :: rs => accepted v os rs
  | _, _ => 0

/-- How often any insert was accepted. -/
def acceptedAll : List Op → List Int → Nat
  | .insert _ _ _ _ _ :: os, r :: rs => (if r = 0 then 1 else 0) + acceptedAll os rs
  | _ :: os, _ :: rs => acceptedAll os rs
  | _, _ => 0

/-- How many extra buckets were taken from the allocator. -/
def bucketsTaken (ev : List Ev) : Nat := ev.count (.alloc true)
/-- How many were given back. -/
def bucketsReturned (ev : List Ev) : Nat := ev.count .freeBucket

/-- Number of lookups. -/
def lookupOps (os : List Op) : Nat := os.countP (fun o => match o with | .lookup _ _ => true | _ => false)

/-- Number of inserts of something. -/
def insertOps (os : List Op) : Nat := os.countP (fun o => match o with | .insert _ _ _ data _ => decide (data ≠ 0) | _ => false)

/-- Number of inserts of something that were refused for lack of room. -/
def refused : List Op → List Int → Nat
  | .insert _ _ _ data _ :: os, r :: rs => (if data ≠ 0 ∧ r = -1 then 1 else 0) + refused os rs
  | _ :: os, _ :: rs => refused os rs
  | _, _ => 0

/-- Number of values freed because they were stale. -/
def collected (ev : List Ev) : Nat := ev.countP (fun e => match e with | .free _ .gc => true | _ => false)

/-- Number of values freed because they were removed by the client. -/
def removedValues (ev : List Ev) : Nat := ev.countP (fun e => match e with | .free _ .removed => true | _ => false)

end Nfqlb.Spec

namespace Nfqlb.Spec

open Nfqlb.Ct (Op Ev Ct Slot stale)

/-- The slot is one of the table's and holds a value. -/
def Stored (ct : Ct) (s : Slot) : Prop := ∃ b ∈ ct.buckets, (s = b.main ∨ s ∈ b.chain) ∧ s.data ≠ 0

/-- The entries that are not in the table itself but in extra buckets. -/
def extraEntries (ct : Ct) : Nat := (ct.buckets.map (fun b => b.chain.length)).sum

/-- The number of values stored. -/
def storedValues (ct : Ct) : Nat := (ct.buckets.map (fun b => (b.main :: b.chain).countP (fun s => decide (s.data ≠ 0)))).sum

/-- How often the value `v` is stored. -/
def storedTimes (v : Nat) (ct : Ct) : Nat := (ct.buckets.map (fun b => (b.main :: b.chain).countP (fun s => decide (s.data = v)))).sum

/-- No operation is later than `T`, no ttl is longer than `L`. -/
def Within (T L : Nat) (ops : List Op) : Prop :=
  ∀ o ∈ ops, opTime o ≤ T ∧ (match o with | .insert _ _ ttl _ _ => ttl ≤ L | _ => True)

end Nfqlb.Spec
