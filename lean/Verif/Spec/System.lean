import Verif.Model.System
import Verif.Spec.Session
import Verif.Spec.NlMsg
import Verif.Spec.Nfqueue
import Verif.Spec.PktSafe
import Verif.Spec.Packet

/-! What the user expects of the whole: each packet gets one answer, and the marks in the answers are those of the targets that are configured at that time. -/

namespace Nfqlb.Spec.Sys

open Nfqlb Nfqlb.Spec Nfqlb.Spec.Session Nfqlb.Spec.Nfq

/-- The user types a line, or the kernel queues a packet, in a message. -/
inductive Ev where
  | line (l : Line)
  | packet (q : Queued) (m : Nfq.Msg) (x : Sys.Ctx)

def Ev.event : Ev → Sys.Event
  | .line l => .line l.argv
  | .packet _ m x => .msg m x

/-- How the load-balancer is started: the shared memory for its targets and for its tier, what to do without targets, and the port for SCTP in UDP. -/
structure Cfg where
  tshm : List Char
  lbshm : Option (List Char)
  notargets : Int
  encap : Nat

/-- How the user starts it: the shared memory, what packets get when there are no targets (the default is to drop them), the port for SCTP in UDP, and the queue. -/
structure Launch where
  tshm : List Char
  lbshm : Option (List Char)
  notargets : Option Nat
  encap : Nat
  queue : Nat

def Launch.argv (l : Launch) : List (List Char) :=
  ["lb".toList, "--tshm=".toList ++ l.tshm] ++ (l.lbshm.map ("--lbshm=".toList ++ ·)).toList ++ (l.notargets.map ("--notargets_fwmark=".toList ++ dec ·)).toList ++
    ["--sctp_encap=".toList ++ dec l.encap, "--queue=".toList ++ dec l.queue]

def Launch.cfg (l : Launch) : Cfg := ⟨l.tshm, l.lbshm, (l.notargets.map Int.ofNat).getD (-1), l.encap⟩

/-- The names are those of shared memory that has been made, the numbers are in range. -/
def Launch.Good (l : Launch) (nm : List Char → Option (List Char)) (S : Lbs) : Prop :=
  (nm l.tshm = some l.tshm ∧ S l.tshm ≠ none) ∧ (∀ u, l.lbshm = some u → nm u = some u ∧ S u ≠ none) ∧ (∀ n, l.notargets = some n → n ≤ 2147483647) ∧ l.encap ≤ 65535 ∧ l.queue ≤ 65535

/-- The line is no `init` or `delete` for the shared memory of the running load-balancer (for these see C84). -/
def Apart (c : Cfg) : Line → Prop
  | .init n _ _ _ => n ≠ c.tshm ∧ c.lbshm ≠ some n
  | .delete n => n ≠ c.tshm ∧ c.lbshm ≠ some n
  | _ => True

/-- The events are as they should be: numbers in range, no `init` or `delete` for the shared memory of the running load-balancer, messages with packets that are not cut off, time goes on. -/
def Good (nm : List Char → Option (List Char)) (c : Cfg) : Nat → List Ev → Prop
  | _, [] => True
  | t, .line l :: es => nm l.shm = some l.shm ∧ l.InRange ∧ Apart c l ∧ Good nm c t es
  | t, .packet q m x :: es => Carries m q ∧ Pkt.Whole q.proto q.data ∧ t ≤ x.now ∧ x.now < 2 ^ 64 ∧ Good nm c x.now es

/-- The kernel reads the message `o` as the answer to the packet: drop it if `r` is negative, else accept it with the mark `r`. -/
def Reads (o : List UInt8) (q : Queued) (r : Int) : Prop :=
  ∃ mark verdict, Nl.verdict o = some (q.queue, q.id, mark, verdict) ∧ (r < 0 → verdict = nfDrop) ∧ (0 ≤ r → verdict = nfAccept ∧ (mark : Int) = r)

/-- `r` is the mark of a target, or what is configured for the case that there are no targets. -/
def Direct (c : Cfg) (S : Lbs) (r : Int) : Prop :=
  ∃ lb, S c.tshm = some lb ∧ (lb.targets ≠ ∅ → r ∈ lb.targets) ∧ (lb.targets = ∅ → r = c.notargets)

/-- `r` is the mark of another member of the tier. -/
def Tier (c : Cfg) (S : Lbs) (r : Int) : Prop :=
  ∃ n lb, c.lbshm = some n ∧ S n = some lb ∧ r ∈ lb.targets ∧ r ≠ lb.own

/-- The flow of a packet. -/
structure Tuple where
  src : List UInt8
  dst : List UInt8
  proto : UInt8
  sport : Raw16
  dport : Raw16

/-- The packet is an unfragmented TCP, UDP or SCTP packet of the flow, over IPv4, or over IPv6 without extension headers; and it is not SCTP in UDP. -/
def FlowOf (encap : Nat) (q : Queued) (f : Tuple) : Prop :=
  (∃ (x : V4) (l : L4), x.WF ∧ l.WF ∧ x.Unfragmented ∧ HasPorts x.proto ∧ x.payload = l.bytes ∧ q.proto = 0x0800 ∧ q.data = x.bytes ∧
    (encap = 0 ∨ x.proto ≠ 17 ∨ portNum l.dport ≠ encap) ∧ f = ⟨x.src.mapped, x.dst.mapped, x.proto, l.sport, l.dport⟩) ∨
  (∃ (x : V6) (l : L4), x.WF ∧ l.WF ∧ HasPorts x.nxt ∧ x.payload = l.bytes ∧ q.proto = 0x86dd ∧ q.data = x.bytes ∧
    (encap = 0 ∨ x.nxt ≠ 17 ∨ portNum l.dport ≠ encap) ∧ f = ⟨x.src, x.dst, x.nxt, l.sport, l.dport⟩)

/-- Bytes of a packet. -/
def bytesAt (d : List UInt8) (i n : Nat) : List UInt8 := (d.drop i).take n

/-- Source and destination; those of IPv4 as IPv4-mapped IPv6 addresses. -/
def ends (q : Queued) : List UInt8 × List UInt8 :=
  if q.proto = 0x0800 then ([0, 0, 0, 0, 0, 0, 0, 0, 0, 0, 255, 255] ++ bytesAt q.data 12 4, [0, 0, 0, 0, 0, 0, 0, 0, 0, 0, 255, 255] ++ bytesAt q.data 16 4)
  else (bytesAt q.data 8 16, bytesAt q.data 24 16)

/-- The identification of the datagram: the one of IPv4 (here with zeros after it), or the one in the fragment header of IPv6 if this is the first extension header. -/
def ident (q : Queued) : Option (List UInt8) :=
  if q.proto = 0x0800 then some (bytesAt q.data 4 2 ++ [0, 0]) else if q.data[6]? = some 44 then some (bytesAt q.data 44 4) else none

/-- The packet is a fragment of an IPv4 datagram, or it is an IPv6 packet with extension headers. -/
def Fragment (q : Queued) : Prop :=
  (q.proto = 0x0800 ∧ value (bytesAt q.data 6 2) % 16384 ≠ 0) ∨ (q.proto = 0x86dd ∧ ∃ t ∈ [(0 : UInt8), 43, 44, 60], q.data[6]? = some t)

/-- Nothing says that the fragments are of different datagrams: same source, destination, and identification. -/
def SameDatagram (q q' : Queued) : Prop := ends q = ends q' ∧ ∀ a b, ident q = some a → ident q' = some b → a = b

/-- The messages `outs` answer the packets. `S`: the load-balancers; `past`: the packets so far and their marks; `recent`: those since the last command line. Each packet gets one answer; what it says is either drop, or comes from
the targets of now; or, for fragments, of the tier, or it is what an earlier fragment of the same datagram got. Each unfragmented packet with ports is given a target of now, the same as others of its flow since the last command. -/
def Right (c : Cfg) : Lbs → List (Queued × Int) → List (Queued × Int) → List Ev → List (List UInt8) → Prop
  | _, _, _, [], outs => outs = []
  | S, past, _, .line l :: es, outs => Right c (l.apply S) past [] es outs
  | S, past, recent, .packet q _ _ :: es, outs =>
    ∃ o rest r, outs = o :: rest ∧ Reads o q r ∧
      (r = -1 ∨ Direct c S r ∨ Fragment q ∧ (Tier c S r ∨ ∃ q', (q', r) ∈ past ∧ Fragment q' ∧ SameDatagram q q')) ∧
      (∀ f, FlowOf c.encap q f → Direct c S r ∧ ∀ q' r', (q', r') ∈ recent → FlowOf c.encap q' f → r' = r) ∧
      Right c S ((q, r) :: past) ((q, r) :: recent) es rest

end Nfqlb.Spec.Sys
