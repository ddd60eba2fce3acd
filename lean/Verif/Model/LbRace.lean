import Verif.Model.Basic

/-! Model of the reference counting of `struct LoadBalancer` by several threads, /repo/src/nfqlb/cmdFlowLb.c:378-460.

One step of this model is what one thread does without being interrupted: one atomic operation on a counter, everything that is done while `lblistLock` is held, or `free`. The threads are not told apart:
what matters is which references are held, and which load-balancers are being released. Every allocation returns a new number, so that the use of a freed load-balancer is seen. Targets are numbers. -/

namespace Nfqlb.LbRace

/-- How far `loadbalancerRelease` is with a load-balancer whose counter became 0: before `LOCK(lblistLock)`, /repo/src/nfqlb/cmdFlowLb.c:392, or after `UNLOCK(lblistLock)`, :405. -/
inductive Phase where
  | unlink
  | free
  deriving Repr, DecidableEq

/-- What the threads share. `list` is `lblist`; `ref`, `target` and `freed` (how often it was freed) are about each load-balancer; `next` is the number of the next one. `held` are the references that flows and threads
have; `pend` are the calls of `loadbalancerRelease` that have more to do. /repo/src/nfqlb/cmdFlowLb.c:75-76 and :378-459. -/
structure St where
  list : List Nat
  ref : Nat → Int
  target : Nat → Nat
  freed : Nat → Nat
  next : Nat
  held : List Nat
  pend : List (Nat × Phase)

/-- No load-balancers, /repo/src/nfqlb/cmdFlowLb.c:75. -/
def start : St := ⟨[], fun _ => 0, fun _ => 0, fun _ => 0, 0, [], []⟩

/-- The moves: `copy`: `loadbalancerLock`, while a flow or thread has a reference; `find`: `loadbalancerFindOrCreate`; `release`: `loadbalancerRelease` until the counter is decremented; `unlink` and `free`: the rest of it;
`use`: an access with a reference. /repo/src/nfqlb/cmdFlowLb.c:378-459. -/
inductive Mv where
  | copy (p : Nat)
  | find (t : Nat)
  | release (p : Nat)
  | unlink (p : Nat)
  | free (p : Nat)
  | use (p : Nat)
  deriving Repr, DecidableEq

/-- Writing one value. A store in /repo/src/nfqlb/cmdFlowLb.c:378-459. -/
def put {α : Type} (f : Nat → α) (p : Nat) (x : α) : Nat → α := fun q => if q = p then x else f q

/-- `REFINC`, and the reference is held, /repo/src/nfqlb/cmdFlowLb.c:381 and :430. -/
def inc (s : St) (p : Nat) : Res St := if s.freed p ≠ 0 then .ub else .ok { s with ref := put s.ref p (s.ref p + 1), held := p :: s.held }

/-- The search, /repo/src/nfqlb/cmdFlowLb.c:428-435: it reads each load-balancer until one has the target. -/
def search (s : St) (t : Nat) : List Nat → Res (Option Nat)
  | [] => .ok none
  | p :: r => if s.freed p ≠ 0 then .ub else if s.target p = t then .ok (some p) else search s t r

/-- `loadbalancerFindOrCreate`, /repo/src/nfqlb/cmdFlowLb.c:424-459, all of it with `lblistLock`; the shared memory exists. -/
def findOrCreate (s : St) (t : Nat) : Res St := do
  match ← search s t s.list with
  | some p => inc s p
  | none => return { s with list := s.next :: s.list, ref := put s.ref s.next 1, target := put s.target s.next t, next := s.next + 1, held := s.next :: s.held }

/-- `REFDEC` and the tests, /repo/src/nfqlb/cmdFlowLb.c:388-390. -/
def dec (s : St) (p : Nat) : Res St :=
  if s.freed p ≠ 0 then .ub
  else
    let s := { s with ref := put s.ref p (s.ref p - 1), held := s.held.erase p }
    if s.ref p < 0 then .die
    else if s.ref p = 0 then .ok { s with pend := (p, .unlink) :: s.pend }
    else .ok s

/-- One move; a move that is not possible does nothing. `unlink`: /repo/src/nfqlb/cmdFlowLb.c:392-405, reads the load-balancers that are in the list and `lb->next`. `free`: :408-415. -/
def move (s : St) : Mv → Res St
  | .copy p => if p ∈ s.held then inc s p else .ok s
  | .find t => findOrCreate s t
  | .release p => if p ∈ s.held then dec s p else .ok s
  | .unlink p =>
    if (p, Phase.unlink) ∈ s.pend then
      if s.freed p ≠ 0 ∨ s.list.any (fun q => s.freed q ≠ 0) = true then .ub
      else .ok { s with list := s.list.erase p, pend := (p, .free) :: s.pend.erase (p, .unlink) }
    else .ok s
  | .free p =>
    if (p, Phase.free) ∈ s.pend then
      if s.freed p ≠ 0 then .ub else .ok { s with freed := put s.freed p 1, pend := s.pend.erase (p, .free) }
    else .ok s
  | .use p => if p ∈ s.held then (if s.freed p ≠ 0 then .ub else .ok s) else .ok s

/-- A sequence of moves. /repo/src/nfqlb/cmdFlowLb.c:378-459. -/
def run (s : St) : List Mv → Res St
  | [] => .ok s
  | m :: ms => do
    let s ← move s m
    run s ms

end Nfqlb.LbRace
