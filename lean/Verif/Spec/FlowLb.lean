import Verif.Model.FlowLb
import Verif.Spec.Flow

/-! What the references of load-balancers should be, and the histories for which this is shown. -/

namespace Nfqlb.Spec.FLB

open Nfqlb.FlowLb

/-- How many flows and packets in progress refer to a load-balancer. -/
def refs (s : Sys) (p : Nat) : Nat := s.st.fset.flows.countP (fun f => f.userRef == p) + s.held.countP (fun h => h.1 == p)

/-- The load-balancers that exist are exactly those that something refers to; the counters are right; the list has exactly these load-balancers, each once, and no two of them are for the same target. -/
structure Balanced (s : Sys) : Prop where
  exist : ∀ p, p ≠ 0 → (s.st.heap p ≠ none ↔ 0 < refs s p)
  count : ∀ p lb, s.st.heap p = some lb → lb.refCounter = refs s p
  listed : ∀ p, p ∈ s.st.lblist ↔ s.st.heap p ≠ none
  once : s.st.lblist.Nodup
  targets : ∀ p q a b, s.st.heap p = some a → s.st.heap q = some b → a.target = b.target → p = q

/-- A request with a name and a target; the name does not begin with `#`, and is not longer than a line of a request permits; the port for encapsulation is 16 bits. -/
def Named (c : Cmd) : Prop := ∃ n t, c.name = some n ∧ c.target = some t ∧ n.head? ≠ some '#' ∧ n.length ≤ 1018 ∧ c.udpencap < 65536

/-- There is a flow with the name in the request, and it has the target in the request. -/
def SameTarget (st : St) (c : Cmd) : Prop := ∃ f ∈ st.fset.flows, some f.name = c.name ∧ ∃ l, st.heap f.userRef = some l ∧ some l.target = c.target

/-- The packet is a UDP packet to port 0. -/
def UdpPort0 (proto : Nat) (data : Packet) : Prop := ∃ p, getHashKey 0 proto data = .ok p ∧ p.key.proto = (17, 0) ∧ p.key.dport = (0, 0)

/-- What the parser says about the packet that decides: the packet itself, or, for UDP packets to a port for encapsulation, the SCTP packet in it. -/
def KeyOf (proto : Nat) (data : Packet) (p q : Parsed) : Prop := q = p ∨ (Flow.protoNum p.key = 17 ∧ getHashKey (ntohs p.key.dport) proto data = .ok q)

/-- Histories of requests and packets, with these exceptions: requests without name or target, or with a name that begins with `#`; requests that are refused after a load-balancer was taken for them;
UDP packets to port 0. -/
inductive Hist (rq : (Nat → Nat) → List Nat → List Nat) (fq : List Flow.Flow → List Flow.Flow) (conf : Conf) : Sys → Prop
  | start (ping : Bool) : Hist rq fq conf ⟨start ping, []⟩
  | set {s : Sys} (env : Env) (c : Cmd) {st : St} {r : Reply} : Hist rq fq conf s → Named c → cmdSet rq fq env s.st c = .ok (st, r) → (r = .sctp ∨ r = .define → SameTarget s.st c) → Hist rq fq conf ⟨st, s.held⟩
  | delete {s : Sys} (name : Option (List Char)) {st : St} {r : Reply} : Hist rq fq conf s → cmdDelete s.st name = .ok (st, r) → Hist rq fq conf ⟨st, s.held⟩
  | arrive {s s' : Sys} (proto : Nat) (data : Packet) : Hist rq fq conf s → ¬ UdpPort0 proto data → step rq fq conf s (.arrive proto data) = .ok s' → Hist rq fq conf s'
  | finish {s s' : Sys} (env : Env) (i : Nat) : Hist rq fq conf s → step rq fq conf s (.finish env i) = .ok s' → Hist rq fq conf s'

end Nfqlb.Spec.FLB
