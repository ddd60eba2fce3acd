import Verif.Model.CText
import Verif.Model.RemoteCmd

/-! Model of the address utility, /repo/src/ipu/ipu.c:13-232. Options have been parsed (`Nfqlb.Cmd`). What is printed is given as bytes of the address and the number behind the slash. -/

namespace Nfqlb.Ipu

open Nfqlb Nfqlb.CText

/-- A string of C, without the terminating NUL; e.g. /repo/src/ipu/ipu.c:49-53. -/
abbrev Str := List Char

/-- Conversion of `long` (given by its low 32 bits) to `int`, /repo/src/ipu/ipu.c:75 and :82. -/
def toInt (n : Nat) : Int := if u32 n < 2147483648 then u32 n else (u32 n : Int) - 4294967296

/-- Four bytes in network byte order as a number: `ntohl`, /repo/src/ipu/ipu.c:112 and :143. -/
def ntohl (a b c d : UInt8) : Nat := 16777216 * a.toNat + 65536 * b.toNat + 256 * c.toNat + d.toNat

/-- A number as four bytes in network byte order: `htonl`, /repo/src/ipu/ipu.c:115 and :145. -/
def htonl (n : Nat) : List UInt8 := [UInt8.ofNat (n / 16777216), UInt8.ofNat (n / 65536), UInt8.ofNat (n / 256), UInt8.ofNat n]

/-- `~((1 << n) - 1)` as `uint32_t`, /repo/src/ipu/ipu.c:104, :169 and :226. All is computed with `int`: for `n` of 31, subtracting 1 from the least `int` is undefined, and so is a shift by 32 or more, or by less than 0. -/
def lowClear (n : Int) : Res Nat := if 0 ≤ n ∧ n ≤ 30 then .ok (4294967296 - 2 ^ n.toNat) else .ub

/-- `max = 1 << n`, /repo/src/ipu/ipu.c:97 and :100. `1 << 31` is taken as GCC does. -/
def oneShl (n : Int) : Res Nat := if 0 ≤ n ∧ n ≤ 31 then .ok (2 ^ n.toNat) else .ub

/-- `net << n`, /repo/src/ipu/ipu.c:113 and :144, for an `int` that is not negative. -/
def shl (net : Int) (n : Int) : Res Int := if 0 ≤ net ∧ 0 ≤ n ∧ n ≤ 31 ∧ net * 2 ^ n.toNat < 2147483648 then .ok (net * 2 ^ n.toNat) else .ub

/-- The options of `makeip`, /repo/src/ipu/ipu.c:49-66. -/
structure MakeOpts where
  cidr : Str
  net : Str := "0".toList
  host : Str := "0".toList
  subnet : Option Str := none
  ipv6template : Option Str := none

/-- What `makeip` prints: the address, and the number behind the slash. Printed at the end of /repo/src/ipu/ipu.c:47-154. -/
structure Printed where
  adr : List UInt8
  size : Option Int
  deriving Repr, DecidableEq

/-- `a = (a & mask) + (net << (bits - s2)) + host`, /repo/src/ipu/ipu.c:113 and :144, in `uint32_t`. -/
def compose (a mask : Nat) (net : Int) (n : Int) (host : Int) : Res Nat := do
  let x ← shl net n
  return (((a &&& mask : Nat) + x + host) % 4294967296).toNat

/-- The number behind the slash, /repo/src/ipu/ipu.c:125, :132 and :148. -/
def size (subnet : Option Str) (s1 s2 : Int) : Option Int := subnet.map (fun t => if Remote.atoi t = 1 then s1 else s2)

/-- `cmdMakeip`, /repo/src/ipu/ipu.c:104-154: with the parsed sizes and numbers, that have been checked. -/
def makeAddr (o : MakeOpts) (cidr : Str) (bits s1 s2 net host : Int) : Res Printed := do
  let mask ← lowClear (bits - s1)
  if bits = 32 then
    match pton4 cidr with
    | some [a0, a1, a2, a3] => do
      let a ← compose (ntohl a0 a1 a2 a3) mask net (bits - s2) host
      match o.ipv6template with
      | some t =>
        match pton6 t with
        | some a6 => return ⟨a6.take 12 ++ htonl a, size o.subnet (s1 + 96) (s2 + 96)⟩
        | none => .die
      | none => return ⟨htonl a, size o.subnet s1 s2⟩
    | _ => .die
  else
    match pton6 cidr with
    | some adr =>
      match adr.drop 12 with
      | [a0, a1, a2, a3] => do
        let a ← compose (ntohl a0 a1 a2 a3) mask net (bits - s2) host
        return ⟨adr.take 12 ++ htonl a, size o.subnet s1 s2⟩
      | _ => .die
    | none => .die

/-- `cmdMakeip`, /repo/src/ipu/ipu.c:91-154. Comparing `net >= max` is done with `unsigned` numbers. -/
def makeChecked (o : MakeOpts) (cidr : Str) (bits s1 s2 net host : Int) : Res Printed :=
  if bits = 128 ∧ s1 < 97 then .die
  else if bits = 128 ∧ o.ipv6template.isSome then .die
  else if s1 > s2 ∨ s2 > bits ∨ s1 ≤ 0 then .die
  else do
    let max ← oneShl (s2 - s1)
    if net % 4294967296 ≥ max then .die
    else do
      let max ← oneShl (bits - s2)
      if host % 4294967296 ≥ max then .die
      else makeAddr o cidr bits s1 s2 net host

/-- `cmdMakeip`, /repo/src/ipu/ipu.c:47-154. INET6_ADDRSTRLEN is 46. -/
def makeip (o : MakeOpts) : Res Printed :=
  if o.cidr.length > 46 + 6 then .die
  else
    match strchr '/' o.cidr with
    | none => .die
    | some cp =>
      let s1 := toInt (strtol0 (cp.drop 1)).1
      let cidr := o.cidr.takeWhile (fun c => c != '/')
      let s2 := match strchr '/' (cp.drop 1) with
        | none => s1
        | some cp2 => toInt (strtol0 (cp2.drop 1)).1
      let bits : Int := if (strchr ':' cidr).isSome then 128 else 32
      makeChecked o cidr bits s1 s2 (Remote.atoi o.net) (Remote.atoi o.host)

/-- The loop of `mask_ipv6`, /repo/src/ipu/ipu.c:161-166: clears whole words from the end. The words are in host byte order here; clearing and comparing do not depend on it. -/
def maskLoop (words : List Nat) (bits i : Nat) : Res (List Nat × Nat × Nat) :=
  if bits ≥ 32 then
    if i < 4 then maskLoop (words.set i 0) (bits - 32) (u32 (i + 4294967295)) else .ub
  else .ok (words, bits, i)
  termination_by bits
  decreasing_by omega

/-- `mask_ipv6`, /repo/src/ipu/ipu.c:157-171. A failing `assert` ends the program. -/
def maskIpv6 (words : List Nat) (pre : Nat) : Res (List Nat) :=
  if pre > 128 then .die
  else do
    let (words, bits, i) ← maskLoop words (128 - pre) 3
    if bits = 0 then return words
    else do
      let mask ← lowClear bits
      match words[i]? with
      | none => .ub
      | some w => return words.set i (w &&& mask)

/-- The words of an IPv6 address, /repo/src/ipu/ipu.c:163 (`s6_addr32`). -/
def words : List UInt8 → List Nat
  | a :: b :: c :: d :: r => ntohl a b c d :: words r
  | _ => []

/-- `cmdContains`, /repo/src/ipu/ipu.c:189-232, for the option `--cidr` and an address: 0 for "contains", 1 for not. -/
def contains (cidr adr : Str) : Res Nat :=
  match strchr '/' cidr with
  | none => .die
  | some cp =>
    let c := cidr.takeWhile (fun c => c != '/')
    let s := Remote.atoi (cp.drop 1)
    if s = 0 then .ok 0
    else if (strchr ':' c).isSome then
      if (strchr ':' adr).isNone then .ok 1
      else if s < 0 ∨ s > 128 then .die
      else match pton6 adr with
        | none => .die
        | some a =>
          match pton6 c with
          | none => .die
          | some c => do
            let a ← maskIpv6 (words a) s.toNat
            let c ← maskIpv6 (words c) s.toNat
            if a ≠ c then return 1 else return 0
    else
      if (strchr ':' adr).isSome then .ok 1
      else if s < 0 ∨ s > 32 then .die
      else match pton4 adr with
        | some [a0, a1, a2, a3] =>
          match pton4 c with
          | some [c0, c1, c2, c3] => do
            let mask ← lowClear (32 - s)
            if ntohl a0 a1 a2 a3 &&& mask ≠ ntohl c0 c1 c2 c3 &&& mask then return 1 else return 0
          | _ => .die
        | _ => .die

/-- `cmdLinklocal`, /repo/src/ipu/ipu.c:29-40, for the six octets of the hardware address: the link-local address. -/
def linklocal (m0 m1 m2 m3 m4 m5 : UInt8) : List UInt8 :=
  [0xfe, 0x80, 0, 0, 0, 0, 0, 0, m0 ^^^ 0x02, m1, m2, 0xff, 0xfe, m3, m4, m5]

end Nfqlb.Ipu
