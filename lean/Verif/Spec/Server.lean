import Verif.Model.Server
import Verif.Spec.FlowLb
import Verif.Spec.RemoteCmd

/-! What the control server should do with the bytes that it gets. -/

namespace Nfqlb.Spec.Srv

open Nfqlb.Remote Nfqlb.Server Nfqlb.Spec.FLB

/-- The request that is in the bytes, if they have a complete one (see C51 and C52). -/
def request (bytes : List Char) : Option FlowCmd :=
  match readFlowCmd bytes ⟨0, 0⟩ with
  | .ok r => if r.rc = 0 then some r.cmd else none
  | _ => none

/-- What an event is for the flows and the load-balancers: complete requests to set or delete a flow, and packets. Everything else that comes to the server is nothing. -/
def effect : Ev → List FlowLb.Ev
  | .conn k =>
    match request k.bytes with
    | none => []
    | some c =>
      if c.action = some "set".toList then [.set k.env c.toCmd]
      else if c.action = some "delete".toList then [.delete c.name]
      else []
  | .arrive proto data => [.arrive proto data]
  | .finish env i => [.finish env i]

/-- Networks with a colon have fewer than 128 characters. -/
def ShortNets (l : Option (List (List Char))) : Prop := ∀ m, l = some m → ∀ x ∈ m, ':' ∈ x → x.length < 128

/-- A request whose criteria the server can take: short networks, a priority between -2^30 and 2^30-1. -/
def Mild (c : FlowCmd) : Prop := ShortNets c.dsts ∧ ShortNets c.srcs ∧ -1073741824 ≤ c.priority ∧ c.priority ≤ 1073741823

/-- If the bytes have a complete request for `set`, it has a name that does not begin with `#`, and a target; if they have one for `trace-set`, it has a name; both are mild. There is no condition for any other bytes. -/
def Benign (bytes : List Char) : Prop :=
  ∀ c, request bytes = some c →
    (c.action = some "set".toList → Named c.toCmd ∧ Mild c) ∧ (c.action = some "trace-set".toList → c.name ≠ none ∧ Mild c)

/-- Histories of connections and packets, with these exceptions: bytes that are not benign; requests that are refused after a load-balancer was taken for them; UDP packets to port 0. -/
inductive Hist (rq : (Nat → Nat) → List Nat → List Nat) (fq : List Flow.Flow → List Flow.Flow) (conf : FlowLb.Conf) : Sys → Prop
  | start (ping : Bool) : Hist rq fq conf ⟨start ping, []⟩
  | conn {s : Sys} (k : Conn) {srv : Srv} {o : Out} : Hist rq fq conf s → Benign k.bytes → serve rq fq s.srv k = .ok (srv, o) →
      (o = .reply .sctp ∨ o = .reply .define → ∃ c, request k.bytes = some c ∧ SameTarget s.srv.st c.toCmd) → Hist rq fq conf ⟨srv, s.held⟩
  | arrive {s s' : Sys} {o : Out} (proto : Nat) (data : Packet) : Hist rq fq conf s → ¬ UdpPort0 proto data → step rq fq conf s (.arrive proto data) = .ok (s', o) → Hist rq fq conf s'
  | finish {s s' : Sys} {o : Out} (env : FlowLb.Env) (i : Nat) : Hist rq fq conf s → step rq fq conf s (.finish env i) = .ok (s', o) → Hist rq fq conf s'

/-- How many copies of names of trace flows are allocated, of those before `n`. -/
def copies (s : Srv) : Nat → Nat
  | 0 => 0
  | n + 1 => copies s n + (if s.names n = none then 0 else 1)

end Nfqlb.Spec.Srv
