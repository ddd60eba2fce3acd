import Verif.Spec.Packet
import Verif.Spec.Flow

/-! What C97 is about: the text that a trace flow writes for a packet. -/

set_option autoImplicit false

namespace Nfqlb.Spec.TT

open Nfqlb Nfqlb.Spec

/-- Decimal digits. -/
def dec (n : Nat) : List Char := Nat.toDigits 10 n

/-- The protocols that have a name. -/
def names : List (UInt8 × List Char) := [(6, "tcp".toList), (17, "udp".toList), (132, "sctp".toList), (1, "icmp".toList), (58, "icmp6".toList)]

/-- The text is the name of the protocol, or its number if it has none. -/
def ProtoText (t : List Char) (p : UInt8) : Prop := (p, t) ∈ names ∨ (∀ n ∈ names, n.1 ≠ p) ∧ t = dec p.toNat

/-- The text is the address (16 bytes; IPv4 addresses are mapped) in the notation of RFC 4291. -/
def Reads (t : List Char) (a : List UInt8) : Prop := ∃ x : FL.Addr6, x.WF ∧ x.text = t ∧ x.bytes = a

/-- The text names the trace flow, has the line about ICMP (`[]` if there is none), and then a line with protocol, length, addresses and ports. -/
def Shows (t name icmp : List Char) (proto : UInt8) (len : Nat) (src dst : List UInt8) (sport dport : Nat) : Prop :=
  ∃ pt st dt rest, ProtoText pt proto ∧ Reads st src ∧ Reads dt dst ∧
    t = "\nMatch for trace-flow: ".toList ++ name ++ ['\n'] ++ icmp ++ "proto=".toList ++ pt ++ ", len=".toList ++ dec len ++ ", ".toList ++ st ++ [' '] ++ dec sport ++ " -> ".toList ++ dt ++ [' '] ++ dec dport ++ ['\n'] ++ rest

/-- A number of 16 bits. -/
def num (x : Raw16) : Nat := x.1.toNat * 256 + x.2.toNat

/-- The line for an ICMP message: for "fragmentation needed" the mtu of the next hop, for other "destination unreachable" the code, for echo requests identifier and sequence number, for all others type and code. -/
def icmp4 (i : Icmp) : List Char :=
  if i.type = 3 ∧ i.code = 4 then "ICMP_DEST_UNREACH/FRAG_NEEDED: mtu=".toList ++ dec (num i.x1) ++ ['\n']
  else if i.type = 3 then "ICMP_DEST_UNREACH: code=".toList ++ dec i.code.toNat ++ ['\n']
  else if i.type = 8 then "ICMP_ECHO: id=".toList ++ dec (num i.x0) ++ ", seq=".toList ++ dec (num i.x1) ++ ['\n']
  else "ICMP ".toList ++ dec i.type.toNat ++ ", ".toList ++ dec i.code.toNat ++ ['\n']

/-- The line for an ICMPv6 message: for "packet too big" the mtu, for echo requests identifier and sequence number, for all others type and code. -/
def icmp6 (i : Icmp) : List Char :=
  if i.type = 2 then "ICMP6_PACKET_TOO_BIG: mtu=".toList ++ dec (num i.x0 * 65536 + num i.x1) ++ ['\n']
  else if i.type = 128 then "ICMP6_ECHO_REQUEST: id=".toList ++ dec (num i.x0) ++ ", seq=".toList ++ dec (num i.x1) ++ ['\n']
  else "ICMP6 ".toList ++ dec i.type.toNat ++ ", ".toList ++ dec i.code.toNat ++ ['\n']

end Nfqlb.Spec.TT
