import Verif.Model.RemoteCmd
import Verif.Model.Lb
import Verif.Model.Options

/-! Model of `parseAddress` and `parseProto`, /repo/src/lib/iputils.c:464-538, and of `nfqlb fwmark`, /repo/src/nfqlb/cmdFwmark.c. Strings are lists of characters without the terminating NUL; a `char` is the low 8
bits of a character. Memory that a `struct sockaddr` occupies is a list of bytes, `none` for a byte that was never written. -/

namespace Nfqlb.Addr

open Nfqlb

/-- A string of C, without the terminating NUL; e.g. /repo/src/lib/iputils.c:464. -/
abbrev Str := List Char

/-- The address that `getaddrinfo` gives in `res->ai_addr` (/repo/src/lib/iputils.c:492-496): `struct sockaddr_in` or `struct sockaddr_in6`. Ports in network order; `scope` are the four bytes of `sin6_scope_id`. -/
inductive Sock where
  | in4 (port : Raw16) (adr : List UInt8)
  | in6 (port : Raw16) (adr : List UInt8) (scope : List UInt8)
  deriving Repr, DecidableEq

/-- The bytes of the structure: family (little endian; AF_INET is 2, AF_INET6 is 10), port, then the address and eight zeros, or `sin6_flowinfo`, the address and the scope
(/repo/src/lib/iputils.c:496 copies them). -/
def Sock.bytes : Sock → List UInt8
  | .in4 p a => [2, 0, p.1, p.2] ++ a ++ [0, 0, 0, 0, 0, 0, 0, 0]
  | .in6 p a s => [10, 0, p.1, p.2, 0, 0, 0, 0] ++ a ++ s

/-- `getaddrinfo(adr, port, &hints, &res)` with AI_NUMERICHOST, AI_NUMERICSERV, AF_UNSPEC and SOCK_STREAM (/repo/src/lib/iputils.c:486-492), a function of the C library: host and service; `none` when it fails.
A parameter; what is expected of it is in `Spec/Addr.lean`. -/
abbrev Gai := Str → Str → Option Sock

/-- A buffer of bytes, some of which may be uninitialised. The buffers of /repo/src/lib/iputils.c:464-510 and /repo/src/nfqlb/cmdFwmark.c:42-43. -/
abbrev Buf := List (Option UInt8)

/-- `memcpy` to the start of a buffer (/repo/src/lib/iputils.c:496), undefined if it does not fit. -/
def copyTo (buf : Buf) (bs : List UInt8) : Res Buf :=
  if bs.length ≤ buf.length then .ok (bs.map some ++ buf.drop bs.length) else .ub

/-- The host and the port of `[host]:port` or `host:port`, /repo/src/lib/iputils.c:470-482; `none` for `return -1`. -/
def splitPort (adr : Str) : Option (Str × Str) :=
  match adr with
  | '[' :: r =>
    match CText.strchr ']' r with
    | some (_ :: ':' :: port) => some (r.takeWhile (fun c => c != ']'), port)
    | _ => none
  | _ =>
    match CText.strchr ':' adr with
    | some (_ :: port) => some (adr.takeWhile (fun c => c != ':'), port)
    | _ => none

/-- The part of `parseAddress` for `tcp:`, /repo/src/lib/iputils.c:467-498; `none` for `return -1`. The result is the buffer and `*len`. -/
def parseTcp (gai : Gai) (adr : Str) (buf : Buf) : Res (Option (Buf × Nat)) :=
  match splitPort adr with
  | none => .ok none
  | some (host, port) =>
    if Remote.atoi port < 0 ∨ Remote.atoi port > 65535 then .ok none
    else match gai host port with
      | none => .ok none
      | some s => do
        let buf ← copyTo buf s.bytes
        return some (buf, s.bytes.length)

/-- The part of `parseAddress` for `unix:`, /repo/src/lib/iputils.c:500-505: family 1, `sun_path[0] = 0`, and `strcpy` to `sun_path+1`. `sun_path` has 108 bytes; undefined if the name and its NUL do not fit there,
or not in the buffer. -/
def parseUnix (name : Str) (buf : Buf) : Res (Option (Buf × Nat)) :=
  if name.length + 2 ≤ 108 then do
    let buf ← copyTo buf ([1, 0, 0] ++ name.map (fun c => UInt8.ofNat c.toNat) ++ [0])
    return some (buf, 2 + name.length + 1)
  else .ub

/-- `parseAddress`, /repo/src/lib/iputils.c:464-510, with `sas` pointing to `buf`. -/
def parseAddress (gai : Gai) (adr : Str) (buf : Buf) : Res (Option (Buf × Nat)) :=
  if adr.take 4 = ['t', 'c', 'p', ':'] then parseTcp gai (adr.drop 4) buf
  else if adr.take 5 = ['u', 'n', 'i', 'x', ':'] then parseUnix (adr.drop 5) buf
  else .ok none

/-- `parseProto`, /repo/src/lib/iputils.c:529-538. -/
def parseProto (s : Str) : UInt8 :=
  if CText.caseEq ['t', 'c', 'p'] s then 6
  else if CText.caseEq ['u', 'd', 'p'] s then 17
  else if CText.caseEq ['s', 'c', 't', 'p'] s then 132
  else 0

/-- `strrchr(s, c)` (/repo/src/nfqlb/cmdFwmark.c:93 and :98): the text before the last `c`, and the text from there on; `none` for NULL. -/
def strrchr (c : Char) (s : Str) : Option (Str × Str) :=
  if c ∈ s then some ((s.reverse.dropWhile (fun x => x != c)).tail.reverse, c :: (s.reverse.takeWhile (fun x => x != c)).reverse)
  else none

/-- The text that `adrParse` hands to `parseAddress`, /repo/src/nfqlb/cmdFwmark.c:87-101; undefined if it does not fit in `buf[128]` (`snprintf` would cut it, `strcpy` would not). -/
def adrText (str : Str) : Res Str :=
  if str.length > 60 then .die
  else if '[' ∈ str then .ok (['t', 'c', 'p', ':'] ++ str)
  else match strrchr ':' str with
    | none => .die
    | some (_, portp) =>
      match strrchr ':' (['t', 'c', 'p', ':', '[', ':', ':', 'f', 'f', 'f', 'f', ':'] ++ str) with
      | none => .ub
      | some (before, _) => if before.length + 1 + portp.length + 1 ≤ 128 then .ok (before ++ ']' :: portp) else .ub

/-- `adrParse`, /repo/src/nfqlb/cmdFwmark.c:85-106: the `struct sockaddr_in6` after the call. `str` is `none` for NULL, on which `strlen` is undefined. -/
def adrParse (gai : Gai) (str : Option Str) (adr : Buf) : Res Buf :=
  match str with
  | none => .ub
  | some str => do
    let t ← adrText str
    match ← parseAddress gai t adr with
    | none => .die
    | some (adr, _) => return adr

/-- Reading `n` bytes of a structure at an offset; reading uninitialised bytes is undefined (/repo/src/nfqlb/cmdFwmark.c:46-47 and :50-51; the bytes are used in the hash). -/
def readN (buf : Buf) (o n : Nat) : Res (List UInt8) :=
  if o + n ≤ buf.length then
    match ((buf.drop o).take n).mapM id with
    | some bs => .ok bs
    | none => .ub
  else .ub

/-- `sin6_addr`, at offset 8 (/repo/src/nfqlb/cmdFwmark.c:46 and :50). -/
def sin6Addr (buf : Buf) : Res (List UInt8) := readN buf 8 16

/-- `sin6_port`, at offset 2 (/repo/src/nfqlb/cmdFwmark.c:47 and :51). -/
def sin6Port (buf : Buf) : Res Raw16 := do
  match ← readN buf 2 2 with
  | [a, b] => return (a, b)
  | _ => .ub

/-- The options of `nfqlb fwmark`, /repo/src/nfqlb/cmdFwmark.c:21-37. `shm` is the table in the shared memory; the others are the texts, `none` for a NULL pointer. -/
structure Opts where
  shm : Option Maglev.Mag
  src : Option Str
  dst : Option Str
  proto : Option Str
  hashMode : Option Str

/-- What is printed, /repo/src/nfqlb/cmdFwmark.c:75-79: the hash, and with `--shm` the index in the lookup table, what is found there, and the fwmark. -/
structure Out where
  hash : Nat
  found : Option (Nat × Int × Int)
  deriving Repr, DecidableEq

/-- `hash_mode = atoi(lb_hash_mode)`, /repo/src/nfqlb/cmdFwmark.c:53 and /repo/src/nfqlb/cmdLb.c:189; `atoi(NULL)` is undefined. -/
def hashModeOf (o : Option Str) : Res Nat :=
  match o with
  | none => .ub
  | some t => .ok (Remote.atoi t % 4294967296).toNat

/-- The hash, /repo/src/nfqlb/cmdFwmark.c:55-63. -/
def hashOf (key : Key) (proto : Option Str) (mode : Nat) : Res Nat :=
  match proto with
  | some t => if parseProto t = 0 then .die else .ok (hashKey { key with proto := (parseProto t, 0) } mode)
  | none => .ok (hashKeyAddresses key)

/-- The look-up, /repo/src/nfqlb/cmdFwmark.c:65-79. -/
def lookUp (d : Maglev.Mag) (hash : Nat) : Res (Nat × Int × Int) :=
  if d.M = 0 then .ub
  else match d.lookup[hash % d.M]? with
    | none => .ub
    | some a =>
      if a < 0 then .ok (hash % d.M, a, -1)
      else match d.active[a.toNat]? with
        | none => .ub
        | some fw => .ok (hash % d.M, a, fw)

/-- `cmdFwmark`, /repo/src/nfqlb/cmdFwmark.c:19-83, after the options; `struct sockaddr_in6 adr` is not initialised (:43) and is used for both addresses. -/
def cmdFwmark (gai : Gai) (o : Opts) : Res Out := do
  let adr ← adrParse gai o.src (List.replicate 28 none)
  let src ← sin6Addr adr
  let sport ← sin6Port adr
  let adr ← adrParse gai o.dst adr
  let dst ← sin6Addr adr
  let dport ← sin6Port adr
  let key : Key := { Key.zero with src := src, dst := dst, sport := sport, dport := dport }
  let mode ← hashModeOf o.hashMode
  let hash ← hashOf key o.proto mode
  match o.shm with
  | none => return ⟨hash, none⟩
  | some d => do
    let f ← lookUp d hash
    return ⟨hash, some f⟩

/-- `nfqlb fwmark` on a command line, /repo/src/nfqlb/cmdFwmark.c:19-83. `shm`: the tables in the shared memories, by name; the program ends if there is none with the name given (:67), after the hash was computed. -/
def fwmarkArgv (gai : Gai) (shm : Str → Option Maglev.Mag) (argv : List Str) : Res Out := do
  let (vars, _) ← Cmd.parseOrDie Cmd.fwmarkOpts argv
  let o : Opts := ⟨none, Cmd.valueOf vars "src".toList, Cmd.valueOf vars "dst".toList, Cmd.valueOf vars "proto".toList, Cmd.valueOf vars "hash_mode".toList⟩
  match Cmd.valueOf vars "shm".toList with
  | none => cmdFwmark gai o
  | some name =>
    match shm name with
    | some d => cmdFwmark gai { o with shm := some d }
    | none => do
      let _ ← cmdFwmark gai o
      .die

end Nfqlb.Addr
