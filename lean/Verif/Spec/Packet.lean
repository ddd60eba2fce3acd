import Verif.Model.Packet

/-! IP packets as the RFCs define them (RFC 791, 792, 768, 8200, 4443), by their fields.  The theorems about
the parser are stated for the byte strings these denote. -/

namespace Nfqlb.Spec

/-- An IPv4 address. -/
structure Addr4 where
  a : UInt8
  b : UInt8
  c : UInt8
  d : UInt8
  deriving Repr, DecidableEq

def Addr4.bytes (x : Addr4) : List UInt8 := [x.a, x.b, x.c, x.d]

/-- The IPv4-mapped IPv6 address `::ffff:a.b.c.d` (RFC 4291). -/
def Addr4.mapped (x : Addr4) : List UInt8 := [0, 0, 0, 0, 0, 0, 0, 0, 0, 0, 255, 255, x.a, x.b, x.c, x.d]

/-- An IPv4 packet (RFC 791); 16-bit fields as two bytes in network order. -/
structure V4 where
  tos : UInt8
  totlen : Raw16
  ident : Raw16
  /-- flags and fragment offset -/
  flagsFrag : Raw16
  ttl : UInt8
  proto : UInt8
  csum : Raw16
  src : Addr4
  dst : Addr4
  opts : List UInt8
  payload : List UInt8
  deriving Repr, DecidableEq

/-- Options come in 32-bit words, at most 10 of them. -/
def V4.WF (x : V4) : Prop := x.opts.length % 4 = 0 ∧ x.opts.length ≤ 40

/-- The packet on the wire: version 4, header length in 32-bit words, and so on. -/
def V4.bytes (x : V4) : Packet :=
  [UInt8.ofNat (4 * 16 + (5 + x.opts.length / 4)), x.tos, x.totlen.1, x.totlen.2,
   x.ident.1, x.ident.2, x.flagsFrag.1, x.flagsFrag.2,
   x.ttl, x.proto, x.csum.1, x.csum.2,
   x.src.a, x.src.b, x.src.c, x.src.d,
   x.dst.a, x.dst.b, x.dst.c, x.dst.d] ++ (x.opts ++ x.payload)

/-- Fragment offset (13 bits). -/
def V4.fragOffset (x : V4) : Nat := (x.flagsFrag.1.toNat * 256 + x.flagsFrag.2.toNat) % 8192
/-- The "more fragments" flag. -/
def V4.moreFragments (x : V4) : Prop := (x.flagsFrag.1.toNat * 256 + x.flagsFrag.2.toNat) / 8192 % 2 = 1

def V4.Unfragmented (x : V4) : Prop := x.fragOffset = 0 ∧ ¬ x.moreFragments
def V4.FirstFragment (x : V4) : Prop := x.fragOffset = 0 ∧ x.moreFragments
def V4.LaterFragment (x : V4) : Prop := x.fragOffset ≠ 0

/-- An IPv6 packet (RFC 8200) without its extension headers: `nxt` is the next-header field, `payload` all that
follows the fixed header. -/
structure V6 where
  vtf : List UInt8
  plen : Raw16
  nxt : UInt8
  hlim : UInt8
  src : List UInt8
  dst : List UInt8
  payload : List UInt8
  deriving Repr, DecidableEq

/-- Version/class/flow label are 4 bytes, addresses 16 bytes. -/
def V6.WF (x : V6) : Prop := x.vtf.length = 4 ∧ x.src.length = 16 ∧ x.dst.length = 16

def V6.bytes (x : V6) : Packet :=
  x.vtf ++ ([x.plen.1, x.plen.2, x.nxt, x.hlim] ++ (x.src ++ (x.dst ++ x.payload)))

/-- The start of a TCP, UDP or SCTP header: source port, destination port, and the rest (never empty: the shortest of
these headers, UDP, has 8 bytes). -/
structure L4 where
  sport : Raw16
  dport : Raw16
  rest : List UInt8
  deriving Repr, DecidableEq

def L4.WF (x : L4) : Prop := 4 ≤ x.rest.length
def L4.bytes (x : L4) : List UInt8 := [x.sport.1, x.sport.2, x.dport.1, x.dport.2] ++ x.rest

/-- Value of a port. -/
def portNum (p : Raw16) : Nat := p.1.toNat * 256 + p.2.toNat

/-- TCP 6, UDP 17, SCTP 132. -/
def HasPorts (p : UInt8) : Prop := p = 6 ∨ p = 17 ∨ p = 132

/-- The key of a flow: addresses, protocol, ports (`user_defined` is not used). -/
def flowKey (src dst : List UInt8) (proto : UInt8) (sport dport : Raw16) : Key :=
  { src := src, dst := dst, ud := (0, 0), proto := (proto, 0), sport := sport, dport := dport }

/-- The key under which a datagram is registered in the fragment table: addresses and identification (a 64-bit number, its four 16-bit parts
in memory order). -/
def fragKey (src dst : List UInt8) (id0 id1 : Raw16) : Key :=
  { src := src, dst := dst, ud := id0, proto := id1, sport := (0, 0), dport := (0, 0) }

/-- An RFC 8200 extension header (hop-by-hop, routing, destination options): next header, length in 8-byte units *not
counting the first 8 bytes*, contents. -/
structure ExtHdr where
  nxt : UInt8
  body : List UInt8
  deriving Repr, DecidableEq

/-- The body fills the header to a multiple of 8 bytes, at most 256 units. -/
def ExtHdr.WF (x : ExtHdr) : Prop := (x.body.length + 2) % 8 = 0 ∧ x.body.length + 2 ≤ 2048
def ExtHdr.bytes (x : ExtHdr) : List UInt8 := [x.nxt, UInt8.ofNat ((x.body.length + 2) / 8 - 1)] ++ x.body

/-- An IPv6 fragment header (RFC 8200 4.5): next header, reserved, offset and flags, identification. -/
structure FragHdr where
  nxt : UInt8
  reserved : UInt8
  offlg : Raw16
  id0 : Raw16
  id1 : Raw16
  deriving Repr, DecidableEq

def FragHdr.bytes (x : FragHdr) : List UInt8 :=
  [x.nxt, x.reserved, x.offlg.1, x.offlg.2, x.id0.1, x.id0.2, x.id1.1, x.id1.2]

/-- Fragment offset (upper 13 bits). -/
def FragHdr.offset (x : FragHdr) : Nat := (x.offlg.1.toNat * 256 + x.offlg.2.toNat) / 8

/-- An ICMP or ICMPv6 header: type, code, checksum, 4 bytes, and the rest of the message. -/
structure Icmp where
  type : UInt8
  code : UInt8
  csum : Raw16
  x0 : Raw16
  x1 : Raw16
  rest : List UInt8
  deriving Repr, DecidableEq

def Icmp.bytes (x : Icmp) : List UInt8 :=
  [x.type, x.code, x.csum.1, x.csum.2, x.x0.1, x.x0.2, x.x1.1, x.x1.2] ++ x.rest

end Nfqlb.Spec
