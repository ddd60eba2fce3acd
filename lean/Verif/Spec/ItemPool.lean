import Verif.Model.ItemPool

/-! Specification of an item pool: histories of well-behaved clients. -/

namespace Nfqlb.Spec

open Nfqlb.Pool (Pool create allocate allocateWithNext clearStats setNext)

/-- The items of the linked list that starts at a pointer. -/
inductive LinkedList (next : Nat → Option Nat) : Option Nat → List Nat → Prop where
  | nil : LinkedList next none []
  | cons {i l} : LinkedList next (next i) l → LinkedList next (some i) (i :: l)

/-- A list the client may give back: it is finite, has no item twice, and all its items are in use. -/
structure OwnList (p : Pool) (used : List Nat) (h : Option Nat) (l : List Nat) : Prop where
  list : LinkedList p.next h l
  nodup : l.Nodup
  own : ∀ i ∈ l, i ∈ used

/-- The states of a pool of `n` items of `size` bytes after any history of calls by clients that only touch items they got and have
not given back. `used`: the items in use, that is handed out and not given back. -/
inductive PoolHist (n size : Nat) : Pool → List Nat → Prop where
  | create {p ev} : create n size true true = .ok (some p, ev) → PoolHist n size p []
  | got {p used p' i} : PoolHist n size p used → allocate p = (p', some i) → PoolHist n size p' (i :: used)
  | gotNone {p used p'} : PoolHist n size p used → allocate p = (p', none) → PoolHist n size p' used
  | freed {p used h l p'} : PoolHist n size p used → OwnList p used h l → Nfqlb.Pool.free p h = .ok p' →
      PoolHist n size p' (used.filter (fun i => decide (i ∉ l)))
  | gotWithNext {p used h l p' i} : PoolHist n size p used → OwnList p used h l → allocateWithNext p h = .ok (p', some i) →
      PoolHist n size p' (i :: used)
  | freedNext {p used h l p'} : PoolHist n size p used → OwnList p used h l → allocateWithNext p h = .ok (p', none) →
      PoolHist n size p' (used.filter (fun i => decide (i ∉ l)))
  | link {p used i x} : PoolHist n size p used → i ∈ used → PoolHist n size { p with next := setNext p.next i x } used
  | clear {p used} : PoolHist n size p used → PoolHist n size (clearStats p) used

end Nfqlb.Spec
