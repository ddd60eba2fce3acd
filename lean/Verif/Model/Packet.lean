import Verif.Model.Basic

/-! Model of the packet parser `/repo/src/lib/iputils.c` and of the hash functions `/repo/src/lib/hash.c`.

The packet is the list of its bytes; a pointer into the packet is a byte offset.  Reading a byte
outside the packet is undefined behaviour.  The target is little-endian (x86-64, aarch64), see
DESIGN.md. -/

namespace Nfqlb

/-- A packet, byte by byte. `data` and `len` of /repo/src/lib/iputils.c:352-367. -/
abbrev Packet := List UInt8

/-- A `uint16_t` as it lies in memory: two bytes. E.g. the ports of `struct ctKey`, /repo/src/lib/conntrack.h:45-58. -/
abbrev Raw16 := UInt8 × UInt8

/-- `struct ctKey`, /repo/src/lib/conntrack.h:45-58 (the struct has no padding).  The 64-bit union is kept as its
four 16-bit parts in memory order: `ud` (user_defined), `proto`, `sport` (ports.src), `dport` (ports.dst). -/
structure Key where
  src : List UInt8
  dst : List UInt8
  ud : Raw16
  proto : Raw16
  sport : Raw16
  dport : Raw16
  deriving Repr, DecidableEq

namespace Key

/-- `memset(key, 0, sizeof(*key))`, /repo/src/lib/iputils.c:356. -/
def zero : Key :=
  { src := List.replicate 16 0, dst := List.replicate 16 0, ud := (0, 0), proto := (0, 0), sport := (0, 0), dport := (0, 0) }

/-- The 8 bytes of the union `id`/`ports`, /repo/src/lib/conntrack.h:49-57. -/
def idBytes (k : Key) : List UInt8 :=
  [k.ud.1, k.ud.2, k.proto.1, k.proto.2, k.sport.1, k.sport.2, k.dport.1, k.dport.2]

/-- The 32 bytes of the two addresses. `struct ctKey`, /repo/src/lib/conntrack.h:45-58. -/
def addrBytes (k : Key) : List UInt8 := k.src ++ k.dst

/-- All 40 bytes of the key. `struct ctKey`, /repo/src/lib/conntrack.h:45-58. -/
def bytes (k : Key) : List UInt8 := k.src ++ k.dst ++ k.idBytes

/-- `key->id = x` for a 64-bit value given by the four 16-bit parts in memory order (little-endian: a `uint16_t`
value occupies the first part, a `uint32_t` the first two). E.g. in /repo/src/lib/iputils.c:106-184. -/
def setId (k : Key) (a b c d : Raw16) : Key := { k with ud := a, proto := b, sport := c, dport := d }

end Key

/-- `djb2_hash`, /repo/src/lib/hash.c:7-13. -/
def djb2 (l : List UInt8) : Nat := l.foldl (fun h c => u32 (u32 (u32 (h * 32) + h) + c.toNat)) 5381

/-- `hashKey`, /repo/src/lib/iputils.c:369-374 (`ports.proto` is compared as a host-order 16-bit number). -/
def hashKey (k : Key) (hashMode : Nat) : Nat :=
  if k.proto = (132, 0) ∧ hashMode = 1 then djb2 [k.sport.1, k.sport.2, k.dport.1, k.dport.2]
  else djb2 k.bytes

/-- `hashKeyAddresses`, /repo/src/lib/iputils.c:375-378. -/
def hashKeyAddresses (k : Key) : Nat := djb2 k.addrBytes

/-- The result of `getHashKey`: return code, `*key` and `*fragid` (raw 64 bit, `none`: not written). /repo/src/lib/iputils.c:352-367. -/
structure Parsed where
  rc : Int
  key : Key
  fragid : Option (Raw16 × Raw16)
  deriving Repr, DecidableEq

/-- A `return -1`; the contents of the key do not matter then. E.g. in /repo/src/lib/iputils.c:106-184. -/
def Parsed.fail : Parsed := { rc := -1, key := Key.zero, fragid := none }

/-- The macro `IN_BOUNDS(p,o,e)`, /repo/src/lib/iputils.h:9 (note: strictly less). -/
def inBounds (p o len : Nat) : Bool := decide (p + o < len)

/-- Reading one byte of the packet. The reads of /repo/src/lib/iputils.c:41-367. -/
def rd (data : Packet) (i : Nat) : Res UInt8 :=
  match data[i]? with
  | some b => .ok b
  | none => .ub

/-- Reading a `uint16_t`. The reads of /repo/src/lib/iputils.c:41-367. -/
def rd16 (data : Packet) (i : Nat) : Res Raw16 := do
  let a ← rd data i
  let b ← rd data (i + 1)
  return (a, b)

/-- Reading `n` bytes. The reads of /repo/src/lib/iputils.c:41-367. -/
def rdN (data : Packet) (i n : Nat) : Res (List UInt8) :=
  if i + n ≤ data.length then .ok ((data.drop i).take n) else .ub

/-- `ntohs()` of a 16-bit number in memory. E.g. in /repo/src/lib/iputils.c:106-184. -/
def ntohs (r : Raw16) : Nat := r.1.toNat * 256 + r.2.toNat

/-- `ipv6IsExtensionHeader`, /repo/src/lib/iputils.c:27-38: hop-by-hop 0, routing 43, fragment 44, destination options 60. -/
def isExtensionHeader (h : UInt8) : Bool := h = 0 || h = 43 || h = 44 || h = 60

/-- `switch (proto) case IPPROTO_TCP/UDP/SCTP`, /repo/src/lib/iputils.c:74-78, :156-160, :221-225 and :322-326. -/
def hasPorts (p : UInt8) : Bool := p = 6 || p = 17 || p = 132

/-- An IPv4 address in the key: `s6_addr16[5] = 0xffff; s6_addr32[3] = a` on zeroed memory,
/repo/src/lib/iputils.c:41-47 and :68-71. -/
def mapped4 (a : List UInt8) : List UInt8 := [0, 0, 0, 0, 0, 0, 0, 0, 0, 0, 0xff, 0xff] ++ a

/-- The common end of the four parsers: the ports, with the check for SCTP encapsulated in UDP.
`swap = false`: /repo/src/lib/iputils.c:165-183 and :331-349 (the destination port is compared with `udpencap`);
`swap = true`: /repo/src/lib/iputils.c:83-103 and :230-250 (the source port is compared, the ports are stored swapped).
`pos` is the offset of the ports. -/
def portsPart (udpencap : Nat) (data : Packet) (proto : UInt8) (pos : Nat) (swap : Bool) (k : Key) (rc : Int)
    (fragid : Option (Raw16 × Raw16)) : Res Parsed :=
  if !inBounds pos 4 data.length then .ok Parsed.fail
  else do
    let p0 ← rd16 data pos
    let p1 ← rd16 data (pos + 2)
    if udpencap ≠ 0 ∧ proto = 17 ∧ ntohs (if swap then p0 else p1) = udpencap then
      if !inBounds (pos + 8) 4 data.length then .ok Parsed.fail
      else do
        let q0 ← rd16 data (pos + 8)
        let q1 ← rd16 data (pos + 10)
        return { rc := rc + 4, fragid := fragid,
                 key := { k with proto := (132, 0), sport := if swap then q1 else q0, dport := if swap then q0 else q1 } }
    else
      return { rc := rc, fragid := fragid,
               key := { k with sport := if swap then p1 else p0, dport := if swap then p0 else p1 } }

/-- `getInnerHashKeyIpv4`, /repo/src/lib/iputils.c:51-104; `ih` is the offset of the ICMP header. -/
def getInnerHashKeyIpv4 (udpencap : Nat) (data : Packet) (ih : Nat) : Res Parsed :=
  let h := ih + 8
  if !inBounds h 20 data.length then .ok Parsed.fail
  else do
    let b0 ← rd data h
    let ihl := b0.toNat % 16
    if ihl < 5 then .ok Parsed.fail
    else do
      let saddr ← rdN data (h + 12) 4
      let daddr ← rdN data (h + 16) 4
      let proto ← rd data (h + 9)
      let k := { Key.zero with src := mapped4 daddr, dst := mapped4 saddr, proto := (proto, 0) }
      if !hasPorts proto then return { rc := 8 + 32, key := k, fragid := none }
      else portsPart udpencap data proto (h + 4 * ihl) true k 8 none

/-- `getHashKeyIpv4`, /repo/src/lib/iputils.c:106-184. -/
def getHashKeyIpv4 (udpencap : Nat) (data : Packet) : Res Parsed :=
  if !inBounds 0 20 data.length then .ok Parsed.fail
  else do
    let b0 ← rd data 0
    let ihl := b0.toNat % 16
    if ihl < 5 then .ok Parsed.fail
    else do
      let fo ← rd16 data 6
      let ident ← rd16 data 4
      let saddr ← rdN data 12 4
      let daddr ← rdN data 16 4
      let proto ← rd data 9
      let frag := decide (ntohs fo % 16384 ≠ 0)
      let first := decide (ntohs fo % 8192 = 0)
      let addrs := { Key.zero with src := mapped4 saddr, dst := mapped4 daddr }
      if frag && !first then
        return { rc := 2, key := addrs.setId ident (0, 0) (0, 0) (0, 0), fragid := none }
      else
        let rc : Int := if frag then 1 else 0
        let fragid := if frag then some (ident, ((0, 0) : Raw16)) else none
        if proto = 1 then do
          let ih := 4 * ihl
          let t ← rd data ih
          if t = 3 || t = 4 || t = 5 || t = 11 then
            if frag then .ok Parsed.fail
            else getInnerHashKeyIpv4 udpencap data ih
          else if t = 8 then do
            let id ← rd16 data (ih + 4)
            return { rc := rc + 16, key := { addrs.setId id (0, 0) (0, 0) (0, 0) with proto := (1, 0) }, fragid := fragid }
          else
            return { rc := rc + 16, key := { addrs with proto := (1, 0) }, fragid := fragid }
        else
          let k := { addrs with proto := (proto, 0) }
          if !hasPorts proto then return { rc := rc + 32, key := k, fragid := fragid }
          else portsPart udpencap data proto (4 * ihl) false k rc fragid

/-- The loops over extension headers, /repo/src/lib/iputils.c:206-214 (`stopFrag = false`) and :266-276
(`stopFrag = true`: stop at a fragment header).  `none` is `return -1`.  The first argument bounds the number of turns. -/
def walkExt (stopFrag : Bool) (data : Packet) : Nat → UInt8 → Nat → Res (Option (UInt8 × Nat))
  | 0, _, _ => .hang
  | fuel + 1, htype, hdr =>
    if !isExtensionHeader htype then .ok (some (htype, hdr))
    else if stopFrag && htype = 44 then .ok (some (htype, hdr))
    else if !inBounds hdr 2 data.length then .ok none
    else do
      let nxt ← rd data hdr
      let l ← rd data (hdr + 1)
      if l = 0 then .ok none
      else walkExt stopFrag data fuel nxt (hdr + l.toNat * 8)

/-- The loop over extension headers of a first fragment, /repo/src/lib/iputils.c:284-288 (no bounds check). -/
def walkFrag (data : Packet) : Nat → UInt8 → Nat → Res (UInt8 × Nat)
  | 0, _, _ => .hang
  | fuel + 1, htype, hdr =>
    if !isExtensionHeader htype then .ok (htype, hdr)
    else do
      let nxt ← rd data hdr
      let l ← rd data (hdr + 1)
      walkFrag data fuel nxt (hdr + l.toNat * 8)

/-- A bound on the number of turns of the header loops, used by the model as fuel. The loops in /repo/src/lib/iputils.c:188-251 and /repo/src/lib/iputils.c:253-350. -/
def turns (data : Packet) : Nat := data.length + 2

/-- `getInnerHashKeyIpv6`, /repo/src/lib/iputils.c:188-251; `ih` is the offset of the ICMPv6 header. -/
def getInnerHashKeyIpv6 (udpencap : Nat) (data : Packet) (ih : Nat) : Res Parsed :=
  let h := ih + 8
  if !inBounds h 40 data.length then .ok Parsed.fail
  else do
    let nxt ← rd data (h + 6)
    let r ← walkExt false data (turns data) nxt (h + 40)
    match r with
    | none => .ok Parsed.fail
    | some (htype, hdr) => do
      let saddr ← rdN data (h + 8) 16
      let daddr ← rdN data (h + 24) 16
      let k := { Key.zero with src := daddr, dst := saddr, proto := (htype, 0) }
      if !hasPorts htype then return { rc := 8 + 32, key := k, fragid := none }
      else portsPart udpencap data htype hdr true k 8 none

/-- The part of `getHashKeyIpv6` after the fragment header has been dealt with, /repo/src/lib/iputils.c:298-350. -/
def ipv6Upper (udpencap : Nat) (data : Packet) (saddr daddr : List UInt8) (frag : Bool)
    (fragid : Option (Raw16 × Raw16)) (htype : UInt8) (hdr : Nat) : Res Parsed :=
  let rc : Int := if frag then 1 else 0
  let addrs := { Key.zero with src := saddr, dst := daddr }
  if htype = 58 then do
    let t ← rd data hdr
    if t = 1 || t = 2 then
      if frag then .ok Parsed.fail
      else getInnerHashKeyIpv6 udpencap data hdr
    else if t = 128 then do
      let id ← rd16 data (hdr + 4)
      return { rc := rc + 16, key := { addrs.setId id (0, 0) (0, 0) (0, 0) with proto := (58, 0) }, fragid := fragid }
    else
      return { rc := rc + 16, key := { addrs with proto := (58, 0) }, fragid := fragid }
  else
    let k := { addrs with proto := (htype, 0) }
    if !hasPorts htype then return { rc := rc + 32, key := k, fragid := fragid }
    else portsPart udpencap data htype hdr false k rc fragid

/-- `getHashKeyIpv6`, /repo/src/lib/iputils.c:253-350. -/
def getHashKeyIpv6 (udpencap : Nat) (data : Packet) : Res Parsed :=
  if !inBounds 0 40 data.length then .ok Parsed.fail
  else do
    let nxt ← rd data 6
    let saddr ← rdN data 8 16
    let daddr ← rdN data 24 16
    let r ← walkExt true data (turns data) nxt 40
    match r with
    | none => .ok Parsed.fail
    | some (htype, hdr) =>
      if htype = 44 then do
        let offlg ← rd16 data (hdr + 2)
        let id0 ← rd16 data (hdr + 4)
        let id1 ← rd16 data (hdr + 6)
        -- ip6f_offlg & IP6F_OFF_MASK: the upper 13 of the 16 bits in network order
        if ntohs offlg / 8 = 0 then do
          let (htype, hdr) ← walkFrag data (turns data) htype hdr
          ipv6Upper udpencap data saddr daddr true (some (id0, id1)) htype hdr
        else
          return { rc := 2, key := { Key.zero with src := saddr, dst := daddr }.setId id0 id1 (0, 0) (0, 0), fragid := none }
      else ipv6Upper udpencap data saddr daddr false none htype hdr

/-- `getHashKey`, /repo/src/lib/iputils.c:352-367 (ETH_P_IP = 0x0800, ETH_P_IPV6 = 0x86dd). -/
def getHashKey (udpencap : Nat) (proto : Nat) (data : Packet) : Res Parsed :=
  if proto = 0x0800 then getHashKeyIpv4 udpencap data
  else if proto = 0x86dd then getHashKeyIpv6 udpencap data
  else .ok Parsed.fail

end Nfqlb
