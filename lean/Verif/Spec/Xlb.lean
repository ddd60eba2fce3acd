import Verif.Model.Xlb
import Verif.Spec.System

/-! What the user expects of `nfqlb xlb`: what a client sends to an address goes to one target, whatever it is. -/

namespace Nfqlb.Spec.XSys

open Nfqlb Nfqlb.Spec Nfqlb.Spec.Session Nfqlb.Spec.Nfq

/-- The user types a line, or the kernel queues a packet, in a message. -/
inductive Ev where
  | line (l : Line)
  | packet (q : Queued) (m : Nfq.Msg)

def Ev.event : Ev → XSys.Event
  | .line l => .line l.argv
  | .packet _ m => .msg m

/-- How the user starts it: the shared memory, and the first and last queue. -/
structure Launch where
  tshm : List Char
  first : Nat
  last : Nat

def Launch.argv (l : Launch) : List (List Char) := ["xlb".toList, "--tshm=".toList ++ l.tshm, "--queue=".toList ++ dec l.first ++ ':' :: dec l.last]

/-- The name is the one of shared memory that has been made, the queues are a range. -/
def Launch.Good (l : Launch) (nm : List Char → Option (List Char)) (S : Lbs) : Prop :=
  nm l.tshm = some l.tshm ∧ S l.tshm ≠ none ∧ l.first ≤ l.last ∧ l.last ≤ 65535

/-- The line is no `init` or `delete` for the shared memory of the running load-balancer (for these see C84). -/
def Apart (tshm : List Char) : Line → Prop
  | .init n _ _ _ => n ≠ tshm
  | .delete n => n ≠ tshm
  | _ => True

/-- The events are as they should be: numbers in range, no `init` or `delete` for the shared memory of the running load-balancer, messages with packets that are not cut off. -/
def Good (nm : List Char → Option (List Char)) (tshm : List Char) : List Ev → Prop
  | [] => True
  | .line l :: es => nm l.shm = some l.shm ∧ l.InRange ∧ Apart tshm l ∧ Good nm tshm es
  | .packet q m :: es => Carries m q ∧ Pkt.Whole q.proto q.data ∧ Good nm tshm es

/-- What follows the IP header is there; of TCP, UDP and SCTP more than the ports. -/
def Enough (proto : UInt8) (payload : List UInt8) : Prop := payload ≠ [] ∧ (HasPorts proto → 5 ≤ payload.length)

/-- An IPv4 packet from `s` to `d`: any fragment but the first; or any protocol but ICMP; or ICMP that is no error. -/
def From4 (q : Queued) (s d : List UInt8) : Prop :=
  ∃ x : V4, x.WF ∧ q.proto = 0x0800 ∧ q.data = x.bytes ∧ s = x.src.mapped ∧ d = x.dst.mapped ∧
    (x.LaterFragment ∧ x.payload ≠ [] ∨ x.proto ≠ 1 ∧ Enough x.proto x.payload ∨ x.proto = 1 ∧ ∃ i : Icmp, x.payload = i.bytes ∧ i.type ∉ [3, 4, 5, 11])

/-- An ICMP error (unreachable, source quench, redirect, time exceeded) about a packet that went from `d` to `s`. -/
def About4 (q : Queued) (s d : List UInt8) : Prop :=
  ∃ (x y : V4) (i : Icmp), x.WF ∧ y.WF ∧ q.proto = 0x0800 ∧ q.data = x.bytes ∧ x.Unfragmented ∧ x.proto = 1 ∧ x.payload = i.bytes ∧ i.type ∈ [3, 4, 5, 11] ∧ i.rest = y.bytes ∧ Enough y.proto y.payload ∧
    s = y.dst.mapped ∧ d = y.src.mapped

/-- An IPv6 packet from `s` to `d`: without extension headers any protocol, but no ICMPv6 error; or with a fragment header any fragment, but no first fragment of ICMPv6 or with further extension headers. -/
def From6 (q : Queued) (s d : List UInt8) : Prop :=
  ∃ x : V6, x.WF ∧ q.proto = 0x86dd ∧ q.data = x.bytes ∧ s = x.src ∧ d = x.dst ∧
    (x.nxt ≠ 58 ∧ ¬ IsExt x.nxt ∧ Enough x.nxt x.payload ∨ (x.nxt = 58 ∧ ∃ i : Icmp, x.payload = i.bytes ∧ 128 ≤ i.type.toNat) ∨
      x.nxt = 44 ∧ ∃ (f : FragHdr) (rest : List UInt8), x.payload = f.bytes ++ rest ∧ (f.offset ≠ 0 ∨ f.reserved = 0 ∧ f.nxt ≠ 58 ∧ ¬ IsExt f.nxt))

/-- An ICMPv6 error (unreachable, packet too big) about a packet that went from `d` to `s`. -/
def About6 (q : Queued) (s d : List UInt8) : Prop :=
  ∃ (x y : V6) (i : Icmp), x.WF ∧ y.WF ∧ q.proto = 0x86dd ∧ q.data = x.bytes ∧ x.nxt = 58 ∧ x.payload = i.bytes ∧ i.type ∈ [1, 2] ∧ i.rest = y.bytes ∧ ¬ IsExt y.nxt ∧ Enough y.nxt y.payload ∧
    s = y.dst ∧ d = y.src

/-- The packet belongs to what `s` sends to `d`. -/
def Belongs (q : Queued) (s d : List UInt8) : Prop := From4 q s d ∨ About4 q s d ∨ From6 q s d ∨ About6 q s d

/-- The messages `outs` answer the packets. `S`: the load-balancers; `recent`: the packets since the last command line and their marks. Each packet gets one answer; what it says is drop or a target of now. What somebody sends to an
address always gets a target as long as there are any, the same for all packets since the last command. -/
def Right (tshm : List Char) : Lbs → List (Queued × Int) → List Ev → List (List UInt8) → Prop
  | _, _, [], outs => outs = []
  | S, _, .line l :: es, outs => Right tshm (l.apply S) [] es outs
  | S, recent, .packet q _ :: es, outs =>
    ∃ o rest r lb, outs = o :: rest ∧ Sys.Reads o q r ∧ S tshm = some lb ∧ (r = -1 ∨ r ∈ lb.targets) ∧
      (∀ s d, Belongs q s d → (lb.targets ≠ ∅ → r ∈ lb.targets) ∧ ∀ q' r', (q', r') ∈ recent → Belongs q' s d → r' = r) ∧
      Right tshm S ((q, r) :: recent) es rest

end Nfqlb.Spec.XSys
