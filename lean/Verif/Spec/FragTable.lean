import Verif.Model.FragTable

/-! What the fragment table does, seen per datagram. -/

namespace Nfqlb.Spec.Frag

open Nfqlb.Frag (FState Op Out)

/-- When an operation takes place, /verif only. -/
def timeOf : Op → Nat
  | .first now _ _ _ => now
  | .get now _ => now
  | .frag now _ _ _ _ _ => now
  | .stats now => now

/-- The datagram that an operation is about. -/
def keyOf : Op → Option Key
  | .first _ k _ _ => some k
  | .get _ k => some k
  | .frag _ k _ _ _ _ => some k
  | .stats _ => none

/-- The clock does not go backwards (from `t` on) and stays in 64 bits. -/
def Timed : Nat → List Op → Prop
  | _, [] => True
  | t, o :: os => t ≤ timeOf o ∧ timeOf o < 2 ^ 64 ∧ Timed (timeOf o) os

/-- The reassembler reports that the datagram is complete. -/
def completes : Op → Prop
  | .frag _ _ _ _ _ rcAsm => rcAsm = 0
  | _ => False

/-- The answer for a datagram whose forwarding value `v` is known: a fragment gets it, another first fragment is refused. -/
def answers (v : Int) : Op → Out → Prop
  | .first _ _ _ _, r => r.rc = -1 ∧ r.injected = []
  | .get _ _, r => r.rc = 0 ∧ r.value = some v
  | .frag _ _ _ _ _ _, r => r.rc = 0 ∧ r.value = some v
  | .stats _, _ => True

/-- The answer for a datagram that is dropped as a whole. -/
def refused (r : Out) : Prop := r.rc = -1 ∧ r.value = none ∧ r.injected = []

/-- All operations about `k` are answered with `v`, until one comes more than `T` after the one before (the first of these at `last`), or the datagram is complete. -/
def Follows (k : Key) (v : Int) (T : Nat) : Nat → List (Op × Out) → Prop
  | _, [] => True
  | last, (o, r) :: l =>
    if keyOf o = some k then timeOf o ≤ last + T → answers v o r ∧ (completes o ∨ Follows k v T (timeOf o) l)
    else Follows k v T last l

/-- All operations about `k` are refused, until one comes more than `T` after the one before (the first of these at `last`). -/
def Refused (k : Key) (T : Nat) : Nat → List (Op × Out) → Prop
  | _, [] => True
  | last, (o, r) :: l =>
    if keyOf o = some k then timeOf o ≤ last + T → refused r ∧ Refused k T (timeOf o) l
    else Refused k T last l

/-- The fragments that were taken over by the table in an operation (returned with code 1), with their datagram. -/
def accepted : Op × Out → List (Key × Nat)
  | (.frag _ k id _ _ _, r) => if r.rc = 1 then [(k, id)] else []
  | _ => []

/-- The fragments that were handed out in an operation, with the datagram of the first fragment. -/
def delivered : Op × Out → List (Key × Nat)
  | (.first _ k _ _, r) => r.injected.map (fun id => (k, id))
  | _ => []

/-- The fragments that wait in the table: those that belong to an object in a slot of the connection tracker. -/
def waiting (ft : Nfqlb.Frag.Ft) : List Nat :=
  ft.ct.buckets.flatMap (fun b => (b.main :: b.chain).flatMap (fun s => if s.data = 0 then [] else (ft.objs s.data).stored))

/-- The fragments `ids` of `k` wait for the first fragment (the last operation about `k` was at `last`): it gets all of them, if it comes in time and if
no other fragment was refused for another reason than its size. -/
def Waits (mtu : Nat) (k : Key) (T : Nat) : Nat → List Nat → List (Op × Out) → Prop
  | _, _, [] => True
  | last, ids, (o, r) :: l =>
    if keyOf o = some k then
      timeOf o ≤ last + T →
        match o with
        | .first _ _ _ _ => r.rc = 0 ∧ r.injected = ids
        | .frag now _ id len _ _ => (r.rc = 1 ∧ Waits mtu k T now (id :: ids) l) ∨ (r.rc = -1 ∧ (mtu < len → Waits mtu k T now ids l))
        | .get now _ => r.rc = -1 ∧ Waits mtu k T now ids l
        | .stats _ => True
    else Waits mtu k T last ids l

end Nfqlb.Spec.Frag
