import Verif.Model.Flow
import Verif.Spec.Packet
import Verif.Spec.Match
import Verif.Spec.RangeSet

/-! What a flow definition says (/repo/flow.md:60-157): networks in CIDR notation, protocols, ports and match expressions; and which packets it is for. -/

namespace Nfqlb.Spec.FL

open Nfqlb.Spec Nfqlb.Spec.BM Nfqlb.Spec.RS

/-- Bit `i` of an address, the most significant bit is bit 0. -/
def bit (a : List UInt8) (i : Nat) : Bool := (a.getD (i / 8) 0).toNat.testBit (7 - i % 8)

/-- The first `p` bits are equal. -/
def SamePrefix (p : Nat) (a x : List UInt8) : Prop := ∀ i < p, bit a i = bit x i

instance (p : Nat) (a x : List UInt8) : Decidable (SamePrefix p a x) := inferInstanceAs (Decidable (∀ i < p, _))

/-- An IPv4 address in text: four decimal numbers. -/
def dotted (a : Addr4) : List Char :=
  Nat.toDigits 10 a.a.toNat ++ ['.'] ++ Nat.toDigits 10 a.b.toNat ++ ['.'] ++ Nat.toDigits 10 a.c.toNat ++ ['.'] ++ Nat.toDigits 10 a.d.toNat

/-- The value of a hexadecimal digit. -/
def hexDigit (c : Char) : Option Nat :=
  if '0' ≤ c ∧ c ≤ '9' then some (c.toNat - '0'.toNat)
  else if 'a' ≤ c ∧ c ≤ 'f' then some (c.toNat - 'a'.toNat + 10)
  else if 'A' ≤ c ∧ c ≤ 'F' then some (c.toNat - 'A'.toNat + 10)
  else none

/-- An IPv6 address in text (RFC 4291, section 2.2): groups of hexadecimal digits, at most one `::`, and possibly an IPv4 address at the end. -/
structure Addr6 where
  left : List (List Char)
  gap : Bool
  right : List (List Char)
  tail : Option Addr4
  deriving Repr, DecidableEq

/-- Groups with colons between them. -/
def colons : List (List Char) → List Char
  | [] => []
  | [g] => g
  | g :: r => g ++ [':'] ++ colons r

def Addr6.text (a : Addr6) : List Char :=
  if a.gap then colons a.left ++ [':', ':'] ++ colons (a.right ++ a.tail.toList.map dotted) else colons (a.left ++ a.tail.toList.map dotted)

/-- One to four hexadecimal digits. -/
def GroupWF (g : List Char) : Prop := 1 ≤ g.length ∧ g.length ≤ 4 ∧ ∀ c ∈ g, (hexDigit c).isSome

instance (g : List Char) : Decidable (GroupWF g) := inferInstanceAs (Decidable (_ ∧ _ ∧ ∀ c ∈ g, _))

/-- Eight groups, where an IPv4 address counts as two, or at most seven and `::`. -/
def Addr6.WF (a : Addr6) : Prop :=
  (∀ g ∈ a.left ++ a.right, GroupWF g) ∧
  if a.gap then a.left.length + a.right.length + 2 * a.tail.toList.length ≤ 7 else a.right = [] ∧ a.left.length + 2 * a.tail.toList.length = 8

instance (a : Addr6) : Decidable a.WF := by unfold Addr6.WF; infer_instance

/-- The number written in hexadecimal. -/
def hexNum (g : List Char) : Nat := g.foldl (fun n c => 16 * n + (hexDigit c).getD 0) 0

/-- A group is 16 bits. -/
def groupBytes (g : List Char) : List UInt8 := [UInt8.ofNat (hexNum g / 256), UInt8.ofNat (hexNum g % 256)]

/-- The address: zeros for `::`. -/
def Addr6.bytes (a : Addr6) : List UInt8 :=
  let l := a.left.flatMap groupBytes
  let r := a.right.flatMap groupBytes ++ a.tail.toList.flatMap Addr4.bytes
  l ++ List.replicate (16 - l.length - r.length) 0 ++ r

/-- A network. -/
inductive Net where
  | v4 (a : Addr4) (p : Nat)
  | v6 (a : Addr6) (p : Nat)
  deriving Repr, DecidableEq

/-- CIDR notation. -/
def Net.text : Net → List Char
  | .v4 a p => dotted a ++ ['/'] ++ Nat.toDigits 10 p
  | .v6 a p => a.text ++ ['/'] ++ Nat.toDigits 10 p

def Net.WF : Net → Prop
  | .v4 _ p => p ≤ 32
  | .v6 a p => a.WF ∧ p ≤ 128

instance (n : Net) : Decidable n.WF := by cases n <;> (unfold Net.WF; infer_instance)

/-- The network contains an address, given by its 16 bytes; IPv4 addresses are given as IPv4-mapped addresses. -/
def Net.Contains : Net → List UInt8 → Prop
  | .v4 a p, x => ∃ y : Addr4, x = y.mapped ∧ SamePrefix p a.bytes y.bytes
  | .v6 a p, x => SamePrefix p a.bytes x

/-- The text for ports: `a` or `a-b`, with commas between them. -/
def portText (r : Nat × Nat) : List Char := if r.1 = r.2 then Nat.toDigits 10 r.1 else Nat.toDigits 10 r.1 ++ ['-'] ++ Nat.toDigits 10 r.2

def portsText : List (Nat × Nat) → List Char
  | [] => []
  | [r] => portText r
  | r :: l => portText r ++ [','] ++ portsText l

/-- A flow as it is defined. Protocols are names. -/
structure Def where
  name : List Char
  priority : Int
  target : Nat
  protocols : Option (List (List Char))
  dports : Option (List (Nat × Nat))
  sports : Option (List (Nat × Nat))
  dsts : Option (List Net)
  srcs : Option (List Net)
  mtch : Option (List Expr)
  udpencap : Nat
  deriving Repr, DecidableEq

/-- The name of a protocol, in any mixture of upper and lower case. -/
def Names (s : List Char) (p : Proto) : Prop := s.map Char.toLower = p.text

instance (s : List Char) (p : Proto) : Decidable (Names s p) := inferInstanceAs (Decidable (_ = _))

/-- Ports in ranges between 1 and 65535; the text has at most 1024 characters. -/
def PortsWF (l : List (Nat × Nat)) : Prop := (∀ r ∈ l, 1 ≤ r.1 ∧ r.1 ≤ r.2 ∧ r.2 ≤ 65535) ∧ (portsText l).length ≤ 1024

instance (l : List (Nat × Nat)) : Decidable (PortsWF l) := inferInstanceAs (Decidable (_ ∧ _))

/-- Between 1 and 32 networks. -/
def NetsWF (l : List Net) : Prop := 1 ≤ l.length ∧ l.length ≤ 32 ∧ ∀ n ∈ l, n.WF

instance (l : List Net) : Decidable (NetsWF l) := inferInstanceAs (Decidable (_ ∧ _ ∧ _))

/-- The definition follows the documentation. -/
structure Def.WF (d : Def) : Prop where
  name : d.name.length ≤ 1023
  protocols : ∀ l, d.protocols = some l → ∀ s ∈ l, ∃ p, Names s p
  dports : ∀ l, d.dports = some l → PortsWF l
  sports : ∀ l, d.sports = some l → PortsWF l
  dsts : ∀ l, d.dsts = some l → NetsWF l
  srcs : ∀ l, d.srcs = some l → NetsWF l
  mtch : ∀ l, d.mtch = some l → ∀ e ∈ l, e.WF ∧ e.Plain ∧ e.InHeader ∧ e.text.length ≤ 64

/-- The arguments of `flowDefine` for a definition. -/
def Def.args (d : Def) : Flow.Args where
  name := some d.name
  priority := d.priority
  userRef := d.target
  protocols := d.protocols
  dports := d.dports.map portsText
  sports := d.sports.map portsText
  dsts := d.dsts.map (·.map Net.text)
  srcs := d.srcs.map (·.map Net.text)
  mtch := d.mtch.map (·.map Expr.text)
  udpencap := d.udpencap

/-- A port in network byte order. -/
def port (p : Raw16) : Nat := 256 * p.1.toNat + p.2.toNat

/-- The packet `data` (EtherType `l3`) has the transport protocol `p` with the complete header `hdr` and something behind it. `l4` is the protocol in the key; if this is SCTP and the packet is UDP then the SCTP
header is in the UDP datagram. -/
inductive HasHeader : Nat → UInt8 → Packet → Proto → List UInt8 → Prop
  | v4 (x : V4) (p : Proto) (hdr rest : List UInt8) : x.WF → x.proto = p.num → x.payload = hdr ++ rest → hdr.length = p.hlen → rest ≠ [] → HasHeader 0x0800 p.num x.bytes p hdr
  | v6 (x : V6) (p : Proto) (hdr rest : List UInt8) : x.WF → x.nxt = p.num → x.payload = hdr ++ rest → hdr.length = p.hlen → rest ≠ [] → HasHeader 0x86dd p.num x.bytes p hdr
  | encap4 (x : V4) (udp hdr rest : List UInt8) : x.WF → x.proto = Proto.udp.num → x.payload = udp ++ (hdr ++ rest) → udp.length = Proto.udp.hlen → hdr.length = Proto.sctp.hlen → rest ≠ [] →
      HasHeader 0x0800 132 x.bytes .sctp hdr
  | encap6 (x : V6) (udp hdr rest : List UInt8) : x.WF → x.nxt = Proto.udp.num → x.payload = udp ++ (hdr ++ rest) → udp.length = Proto.udp.hlen → hdr.length = Proto.sctp.hlen → rest ≠ [] →
      HasHeader 0x86dd 132 x.bytes .sctp hdr

/-- The addresses of the packet are in the networks of the flow, if there are any. -/
def Def.AddressMatch (d : Def) (k : Key) : Prop := (∀ l, d.dsts = some l → ∃ n ∈ l, n.Contains k.dst) ∧ (∀ l, d.srcs = some l → ∃ n ∈ l, n.Contains k.src)

/-- All other criteria of the flow, if there are any, hold. `hdr` is the transport header and its protocol, if the bytes of the packet are looked at. -/
def Def.OtherMatch (d : Def) (k : Key) (hdr : Option (Proto × List UInt8)) : Prop :=
  (∀ l, d.protocols = some l → ∃ s ∈ l, ∃ p, Names s p ∧ k.proto = (p.num, 0)) ∧
  (∀ l, d.dports = some l → ∃ r ∈ l, r.1 ≤ port k.dport ∧ port k.dport ≤ r.2) ∧
  (∀ l, d.sports = some l → ∃ r ∈ l, r.1 ≤ port k.sport ∧ port k.sport ≤ r.2) ∧
  (∀ l, d.mtch = some l → ∀ p h, hdr = some (p, h) → AllHold l p.num h)

/-- The packet is ICMP or ICMPv6. -/
def IsIcmp (k : Key) : Prop := k.proto = (1, 0) ∨ k.proto = (58, 0)

/-- The flow is for the packet. -/
def Def.Matches (d : Def) (ping : Bool) (k : Key) (hdr : Option (Proto × List UInt8)) : Prop := d.AddressMatch k ∧ ((ping = true ∧ IsIcmp k) ∨ d.OtherMatch k hdr)

/-- What the C standard says about `qsort` with the comparison of priorities: a permutation, sorted by descending priority. The order of flows with the same priority is not specified. -/
def Sorts (fq : List Flow.Flow → List Flow.Flow) : Prop := ∀ l, (fq l).Perm l ∧ (fq l).Pairwise (fun f g => g.priority ≤ f.priority)

end Nfqlb.Spec.FL
