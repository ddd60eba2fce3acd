import Verif.Model.Sock

/-! What is expected of the kernel for `bind` and `connect`, and which processes run after a history. -/

set_option autoImplicit false

namespace Nfqlb.Spec.Sk

open Nfqlb Nfqlb.Sock

/-- What is expected of the kernel: an address can be bound once; a client reaches the listener that has exactly its address, and it reaches another one only if that excludes a listener with the exact address (as `0.0.0.0` does);
nobody is reached at port 0; names of unix sockets exclude and reach themselves only; instead of port 0 the kernel binds another port of the same family that is free. -/
structure NetOk (net : Net) : Prop where
  self : ∀ a, portZero a = false → net.clash a a = true
  symm : ∀ a b, net.clash a b = net.clash b a
  reachSelf : ∀ a, portZero a = false → net.reach a a = true
  reachClash : ∀ a b, net.reach a b = true → net.clash a b = true
  zero : ∀ a b, portZero a = true → net.reach a b = false
  unix : ∀ a b, a.head? = some 1 → net.clash a b = true → a = b
  pick : ∀ l a b, net.pick l a = some b → portZero b = false ∧ b.head? = a.head? ∧ ∀ c ∈ l, net.clash b c = false

/-- The process of a start. -/
def pidOf : Ev → Option Nat
  | .lb pid _ => some pid
  | .flowlb pid _ _ => some pid
  | _ => none

/-- The starts whose processes still run: those that succeeded and whose process was not stopped since. -/
def note (l : List Ev) : Ev × Out → List Ev
  | (.stop pid, _) => l.filter (fun e => pidOf e != some pid)
  | (e, .running) => e :: l
  | _ => l

/-- The processes that run after a history. -/
def alive (h : List (Ev × Out)) : List Ev := h.foldl note []

/-- The text is that of a TCP address with port 0. -/
def ZeroPort (gai : Addr.Gai) (text : Addr.Str) : Prop := ∃ a, address gai text = .ok a ∧ portZero a = true

/-- The listening addresses that a start asks for. -/
def wants : Ev → List (Role × Addr.Str)
  | .lb _ tr => [(.trace, tr.getD "unix:nfqlb-trace".toList)]
  | .flowlb _ env tr => [(.trace, tr.getD "unix:nfqlb-trace".toList), (.flow, env.getD "unix:nfqlb".toList)]
  | _ => []

/-- The same start as another process. -/
def withPid (pid : Nat) : Ev → Ev
  | .lb _ tr => .lb pid tr
  | .flowlb _ env tr => .flowlb pid env tr
  | e => e

/-- The text names a unix socket; the name has at most 106 characters. -/
def UnixText (t : Addr.Str) : Prop := ∃ n, t = "unix:".toList ++ n ∧ n.length ≤ 106

/-- A kernel for the examples: only equal addresses have to do with each other; port 0 becomes the first free port from 32768 on (the ports whose low byte is 0 only). -/
def plain : Net where
  clash a b := a == b
  reach a b := a == b && !portZero a
  pick l a := ((List.range 128).map (fun i => [a.headD 2, 0, UInt8.ofNat (128 + i), 0] ++ a.drop 4)).find? (fun b => b.head? == a.head? && !portZero b && !l.contains b)

end Nfqlb.Spec.Sk
