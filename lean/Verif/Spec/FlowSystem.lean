import Verif.Model.FlowSystem
import Verif.Spec.System
import Verif.Spec.Server
import Verif.Spec.Flow

/-! What the user expects of `nfqlb flowlb` as a whole: each packet gets one answer; it comes from the load-balancer of a flow that is for the packet and has the highest priority of these. -/

namespace Nfqlb.Spec.FSys

open Nfqlb Nfqlb.Spec Nfqlb.Spec.Session Nfqlb.Spec.Nfq Nfqlb.Spec.FL Nfqlb.Spec.BM
open Nfqlb.Spec.Sys (Tuple FlowOf Fragment SameDatagram Reads)

/-- A flow as the user defines it: the criteria (`target` in there has no meaning here), and the shared memory of its load-balancer. -/
structure Flow where
  d : Def
  shm : List Char

/-- What the user gives to `nfqlb flow-set`. -/
def Flow.request (f : Flow) : Rem.Request where
  name := f.d.name
  target := f.shm
  priority := some f.d.priority
  protocols := f.d.protocols
  dsts := f.d.dsts.map (·.map Net.text)
  srcs := f.d.srcs.map (·.map Net.text)
  dports := f.d.dports.map portsText
  sports := f.d.sports.map portsText
  mtch := f.d.mtch.map (·.map Expr.text)
  udpencap := none

/-- The flow follows the documentation, can be sent, and is not for SCTP in UDP; the name does not begin with `#`, and networks are short; the priority is between -2^30 and 2^30-1. -/
structure Flow.Good (f : Flow) : Prop where
  wf : f.d.WF
  sent : f.request.WF
  encap : f.d.udpencap = 0
  name : f.d.name.head? ≠ some '#'
  dsts : Srv.ShortNets f.request.dsts
  srcs : Srv.ShortNets f.request.srcs
  priority : -1073741824 ≤ f.d.priority ∧ f.d.priority ≤ 1073741823

/-- The user types a line; gives `nfqlb flow-set` (which sends the text) or `nfqlb flow-delete`; any other bytes come to the control server; or the kernel queues a packet. -/
inductive Ev where
  | line (l : Line)
  | set (f : Flow) (text : List Char) (cnt : Flow.Flow → Nat)
  | delete (name : List Char) (cnt : Flow.Flow → Nat)
  | other (bytes : List Char) (cnt : Flow.Flow → Nat)
  | packet (q : Queued) (m : Nfq.Msg) (x : Sys.Ctx)

def Ev.event : Ev → FSys.Event
  | .line l => .line l.argv
  | .set _ text cnt => .conn cnt text
  | .delete name cnt => .conn cnt (Remote.deleteText name)
  | .other bytes cnt => .conn cnt bytes
  | .packet _ m x => .msg m x

/-- How the load-balancer is started: the shared memory for its tier, what to do without targets, and what to do with packets without a flow. -/
structure Cfg where
  lbshm : Option (List Char)
  notargets : Int
  nolb : Int

/-- How the user starts it: the tier, the marks (the default is to drop packets), and the queue. -/
structure Launch where
  lbshm : Option (List Char)
  notargets : Option Nat
  nolb : Option Nat
  queue : Nat

def Launch.argv (l : Launch) : List (List Char) :=
  ["flowlb".toList] ++ (l.lbshm.map ("--lbshm=".toList ++ ·)).toList ++ (l.notargets.map ("--notargets_fwmark=".toList ++ dec ·)).toList ++ (l.nolb.map ("--nolb_fwmark=".toList ++ dec ·)).toList ++ ["--queue=".toList ++ dec l.queue]

def Launch.cfg (l : Launch) : Cfg := ⟨l.lbshm, (l.notargets.map Int.ofNat).getD (-1), (l.nolb.map Int.ofNat).getD (-1)⟩

/-- The name of the tier is that of shared memory that has been made, the numbers are in range. -/
def Launch.Good (l : Launch) (nm : List Char → Option (List Char)) (S : Lbs) : Prop :=
  (∀ u, l.lbshm = some u → nm u = some u ∧ S u ≠ none) ∧ (∀ n, l.notargets = some n → n ≤ 2147483647) ∧ (∀ n, l.nolb = some n → n ≤ 2147483647) ∧ l.queue ≤ 65535

/-- The flows after `flow-set`: this one is there, in place of one with the same name; if its shared memory does not exist, nothing is changed. -/
def setFlow (S : Lbs) (F : List Flow) (f : Flow) : List Flow := if S f.shm = none then F else f :: F.filter (fun g => g.d.name ≠ f.d.name)

/-- The flows after `flow-delete`. -/
def deleteFlow (F : List Flow) (name : List Char) : List Flow := F.filter (fun g => g.d.name ≠ name)

/-- The line is no `init` or `delete` for the shared memory of the tier or of a flow (for these see C84). -/
def Apart (c : Cfg) (F : List Flow) : Line → Prop
  | .init n _ _ _ => (∀ f ∈ F, f.shm ≠ n) ∧ c.lbshm ≠ some n
  | .delete n => (∀ f ∈ F, f.shm ≠ n) ∧ c.lbshm ≠ some n
  | _ => True

/-- If the bytes have a complete request, it is not to set or delete a flow; and if it is to set a trace flow, this has a name, short networks and a priority in range. -/
def Harmless (bytes : List Char) : Prop :=
  ∀ c, Srv.request bytes = some c → c.action ≠ some "set".toList ∧ c.action ≠ some "delete".toList ∧ (c.action = some "trace-set".toList → c.name ≠ none ∧ Srv.Mild c)

/-- The events are as they should be: numbers in range, no `init` or `delete` for the shared memory in use, flows as documented, names of shared memory that are their own paths, other requests harmless, messages with packets that are
not cut off and not UDP to port 0, time goes on. -/
def Good (nm : List Char → Option (List Char)) (c : Cfg) : Lbs → List Flow → Nat → List Ev → Prop
  | _, _, _, [] => True
  | S, F, t, .line l :: es => nm l.shm = some l.shm ∧ l.InRange ∧ Apart c F l ∧ Good nm c (l.apply S) F t es
  | S, F, t, .set f text _ :: es => f.Good ∧ nm f.shm = some f.shm ∧ Remote.cmdFlowSet f.request.opts = .ok text ∧ Good nm c S (setFlow S F f) t es
  | S, F, t, .delete name _ :: es => Rem.Clean name ∧ name.length ≤ 1010 ∧ Good nm c S (deleteFlow F name) t es
  | S, F, t, .other bytes _ :: es => Harmless bytes ∧ Good nm c S F t es
  | S, F, t, .packet q m x :: es => Carries m q ∧ Pkt.Whole q.proto q.data ∧ ¬ FLB.UdpPort0 q.proto q.data ∧ t ≤ x.now ∧ x.now < 2 ^ 64 ∧ Good nm c S F x.now es

/-- `r` is the mark of a target of the flow, or what is configured for the case that there are no targets. -/
def From (c : Cfg) (S : Lbs) (f : Flow) (r : Int) : Prop :=
  ∃ lb, S f.shm = some lb ∧ (lb.targets ≠ ∅ → r ∈ lb.targets) ∧ (lb.targets = ∅ → r = c.notargets)

/-- `r` is the mark of another member of the tier. -/
def Tier (c : Cfg) (S : Lbs) (r : Int) : Prop :=
  ∃ n lb, c.lbshm = some n ∧ S n = some lb ∧ r ∈ lb.targets ∧ r ≠ lb.own

/-- What the criteria of the flows `F` can look at: the transport header and its protocol; nothing if no flow looks at bytes. -/
def Header (F : List Flow) (q : Queued) (t : Tuple) : Option (Proto × List UInt8) → Prop
  | none => ∀ f ∈ F, f.d.mtch = none
  | some (p, h) => HasHeader q.proto t.proto q.data p h

/-- The flow is for packets with these addresses and ports and this header. -/
def Flow.For (f : Flow) (t : Tuple) (hdr : Option (Proto × List UInt8)) : Prop :=
  f.d.AddressMatch (flowKey t.src t.dst t.proto t.sport t.dport) ∧ f.d.OtherMatch (flowKey t.src t.dst t.proto t.sport t.dport) hdr

/-- `r` comes from a flow that is for the packet, and no flow of a higher priority is; or there is no such flow, and `r` is what is configured for that. -/
def Chosen (c : Cfg) (S : Lbs) (F : List Flow) (t : Tuple) (hdr : Option (Proto × List UInt8)) (r : Int) : Prop :=
  ((∀ f ∈ F, ¬ f.For t hdr) ∧ r = c.nolb) ∨ ∃ f ∈ F, f.For t hdr ∧ (∀ g ∈ F, g.For t hdr → g.d.priority ≤ f.d.priority) ∧ From c S f r

/-- What is sent is right. `S`: the load-balancers; `F`: the flows; `past`: the packets so far and their marks; `recent`: those since the load-balancers and flows were changed. Setting a flow is answered with OK exactly if its
shared memory exists. Each packet gets one answer; what it says is either drop, or the mark for packets without flow, or it comes from the targets of a flow; or, for fragments, of the tier, or it is what an earlier fragment of the same
datagram got. Each unfragmented packet with ports gets what is right for its flow, and the same as others with the same addresses and ports that the same flows are for. -/
def Right (c : Cfg) : Lbs → List Flow → List (Queued × Int) → List (Queued × Int) → List Ev → List FSys.Sent → Prop
  | _, _, _, _, [], outs => outs = []
  | S, F, past, _, .line l :: es, outs => Right c (l.apply S) F past [] es outs
  | S, F, past, _, .set f _ _ :: es, outs => ∃ o rest, outs = .client (.reply o) :: rest ∧ (o = .ok ↔ S f.shm ≠ none) ∧ Right c S (setFlow S F f) past [] es rest
  | S, F, past, _, .delete name _ :: es, outs => ∃ rest, outs = .client (.reply .ok) :: rest ∧ Right c S (deleteFlow F name) past [] es rest
  | S, F, past, recent, .other _ _ :: es, outs => ∃ o rest, outs = .client o :: rest ∧ Right c S F past recent es rest
  | S, F, past, recent, .packet q _ _ :: es, outs =>
    ∃ o rest r, outs = .kernel o :: rest ∧ Reads o q r ∧
      (r = -1 ∨ r = c.nolb ∨ (∃ f ∈ F, From c S f r) ∨ Fragment q ∧ (Tier c S r ∨ ∃ q', (q', r) ∈ past ∧ Fragment q' ∧ SameDatagram q q')) ∧
      (∀ t hdr, FlowOf 0 q t → Header F q t hdr → Chosen c S F t hdr r ∧
        ∀ q' r' hdr', (q', r') ∈ recent → FlowOf 0 q' t → Header F q' t hdr' → (∀ f ∈ F, f.For t hdr ↔ f.For t hdr') → r' = r) ∧
      Right c S F ((q, r) :: past) ((q, r) :: recent) es rest

end Nfqlb.Spec.FSys
