import Verif.Model.Options
import Verif.Model.RemoteCmd
import Verif.Model.FragTable
import Verif.Model.ItemPool

/-! Model of how `nfqlb lb` and `nfqlb flowlb` start, /repo/src/nfqlb/cmdLb.c:123-245 and /repo/src/nfqlb/cmdFlowLb.c:239-368, and of /repo/src/lib/tuntap.c. Not modelled: the trace server (see `TraceSrv`), shared memory (see
`Shmem`; the program ends if it can not be mapped), the flow thread (see `Server`; `flowlb` ends if it can not be created, /repo/src/nfqlb/cmdFlowLb.c:345-347), and what is printed. -/

namespace Nfqlb.Start

open Nfqlb

/-- A string of C, without the terminating NUL; e.g. /repo/src/nfqlb/cmdLb.c:125-140. -/
abbrev Str := List Char

/-! ### lib/tuntap.c -/

/-- What the kernel does for /repo/src/lib/tuntap.c: `open("/dev/net/tun")` (:21) and `socket` (:42) give a descriptor or fail; `TUNSETIFF` (:31) and `SIOCGIFMTU` (:50) get the 16 bytes of `ifr_name`. -/
structure Dev where
  opened : Option Nat
  setIff : List Char → Bool
  socket : Option Nat
  mtuOf : List Char → Option Int

/-- IFNAMSIZ, the size of `ifr_name` (/repo/src/lib/tuntap.c:29). -/
def ifNameSize : Nat := 16

/-- `strncpy(ifr.ifr_name, dev, IFNAMSIZ)` after `memset`, /repo/src/lib/tuntap.c:27-29. -/
def strncpyName (dev : Str) : List Char := (dev ++ List.replicate ifNameSize '\x00').take ifNameSize

/-- `tun_alloc`, /repo/src/lib/tuntap.c:14-38: the value, and the descriptors that are open afterwards. -/
def tunAlloc (k : Dev) (dev : Option Str) (fds : List Nat) : Int × List Nat :=
  match dev with
  | none => (-1, fds)
  | some dev =>
    match k.opened with
    | none => (-1, fds)
    | some fd => if k.setIff (strncpyName dev) = false then (-1, (fd :: fds).erase fd) else (fd, fd :: fds)

/-- `get_mtu`, /repo/src/lib/tuntap.c:40-56. `strcpy` of a name that does not fit in `ifr_name` is undefined (:49). -/
def getMtu (k : Dev) (dev : Str) (fds : List Nat) : Res (Int × List Nat) :=
  match k.socket with
  | none => .ok (-1, fds)
  | some fd =>
    if ifNameSize < dev.length + 1 then .ub
    else
      match k.mtuOf (dev ++ List.replicate (ifNameSize - dev.length) '\x00') with
      | none => .ok (-1, fd :: fds)
      | some mtu => .ok (mtu, (fd :: fds).erase fd)

/-! ### The queues -/

/-- `sscanf(qnum, "%u:%u", &first, &last) != 2`, /repo/src/nfqlb/cmdLb.c:233 and /repo/src/nfqlb/cmdFlowLb.c:357; `none` if it is not 2. -/
def scanRange (qnum : Str) : Option (Nat × Nat) :=
  match CText.scanU qnum with
  | some (first, ':' :: rest) =>
    match CText.scanU rest with
    | some (last, _) => some (first, last)
    | none => none
  | _ => none

/-- The queue numbers for which `nfqueueRun` is called, /repo/src/nfqlb/cmdLb.c:230-244 and /repo/src/nfqlb/cmdFlowLb.c:354-367; the last one on the main thread. `thread`: does `pthread_create` succeed for a queue. -/
def queues (thread : Nat → Bool) (qnum : Str) : Res (List Nat) :=
  if ':' ∈ qnum then
    match scanRange qnum with
    | none => .die
    | some (first, last) =>
      if first > last then .die
      else if (List.range' first (last - first)).all thread then .ok (List.range' first (last - first) ++ [last])
      else .die
  else .ok [(Remote.atoi qnum % 4294967296).toNat]

/-- The queue that `nfqueueRun(queue_num)` binds to: `htons` of it in `nfq_hdr_put`, /repo/src/lib/nfqueue.c:30-43 and :156. -/
def bound (q : Nat) : Nat := q % 65536

/-! ### The start -/

/-- The surroundings: kernel, threads, and the sizes of `struct ctBucket`, `struct FragData` and `struct hole` (/repo/src/lib/conntrack.c:53, /repo/src/lib/fragutils.c:209, /repo/src/lib/reassembler.c:128). -/
structure Env where
  dev : Dev
  thread : Nat → Bool
  sizeofBucket : Nat
  sizeofFragData : Nat
  sizeofHole : Nat

/-- What the program has set up when it begins to handle packets. `inject`: the descriptor that stored fragments are written to, if `setInjectFn` was called. `reass`: the size of the reassembler. Parameters of type `unsigned`
have the 32 bits that `atoi` gave. /repo/src/nfqlb/cmdLb.c:173-244 and /repo/src/nfqlb/cmdFlowLb.c:293-367. -/
structure Started where
  notargets : Int
  nolb : Int
  udpEncap : Nat
  hashMode : Nat
  ping : Bool
  mtu : Nat
  inject : Option Nat
  hsize : Nat
  buckets : Nat
  frags : Nat
  ttl : Nat
  reass : Option Nat
  qlen : Nat
  queues : List Nat
  deriving Repr, DecidableEq

/-- `atoi` of the value of an option; of NULL it is undefined. E.g. /repo/src/nfqlb/cmdLb.c:182. -/
def num (vars : List Cmd.Opt) (name : String) : Res Int :=
  match Cmd.valueOf vars name.toList with
  | none => .ub
  | some t => .ok (Remote.atoi t)

/-- The same if the program reads the option in this case, else a fixed value. /repo/src/nfqlb/cmdLb.c:187 and :193-209, /repo/src/nfqlb/cmdFlowLb.c:312-328. -/
def numIf (c : Bool) (vars : List Cmd.Opt) (name : String) (other : Int) : Res Int := if c then num vars name else .ok other

/-- `int` to `unsigned`. E.g. /repo/src/nfqlb/cmdLb.c:230. -/
def uns (x : Int) : Nat := (x % 4294967296).toNat

/-- The tun device, /repo/src/nfqlb/cmdLb.c:193-209 and /repo/src/nfqlb/cmdFlowLb.c:312-328: the descriptor for `setInjectFn`. -/
def openTun (k : Dev) (tun : Option Str) (mtu : Int) : Res (Option Nat) :=
  match tun with
  | none => .ok none
  | some tun =>
    let (fd, fds) := tunAlloc k (some tun) []
    if fd < 0 then .die
    else do
      let (tunMtu, _) ← getMtu k tun fds
      if tunMtu < mtu then .die else return some fd.toNat

/-- The pools that `fragTableCreate` (/repo/src/lib/fragutils.c:205-209) and `createReassembler` (/repo/src/lib/reassembler.c:128) make; memory is available, but may be too small for the items (see `Pool.create`). -/
def makePools (e : Env) (s : Started) : Res Unit := do
  let _ ← Pool.create s.buckets e.sizeofBucket true true
  let _ ← Pool.create s.frags s.mtu true true
  let _ ← Pool.create (u32 (s.hsize + s.buckets)) e.sizeofFragData true true
  match s.reass with
  | none => return ()
  | some n => do
    let _ ← Pool.create n e.sizeofHole true true
    return ()

/-- `cmdLb` (/repo/src/nfqlb/cmdLb.c:173-244) and `cmdFlowLb` (`flow`, /repo/src/nfqlb/cmdFlowLb.c:293-367), after the options; `lb` has no `nolb_fwmark` and `promiscuous_ping`, `flowlb` has no `sctp_encap`. -/
def start (flow : Bool) (e : Env) (vars : List Cmd.Opt) : Res Started := do
  let notargets ← num vars "notargets_fwmark"
  let nolb ← numIf flow vars "nolb_fwmark" (-1)
  let mtu ← num vars "mtu"
  if mtu < 576 then .die
  else do
    let udpEncap ← numIf (!flow) vars "sctp_encap" 0
    let hashMode ← num vars "hash_mode"
    let inject ← openTun e.dev (Cmd.valueOf vars "tun".toList) mtu
    let hsize ← num vars "ft_size"
    let buckets ← num vars "ft_buckets"
    let frags ← numIf inject.isSome vars "ft_frag" 0
    let ttl ← num vars "ft_ttl"
    let reass ← num vars "reassembler"
    let qlen ← num vars "qlength"
    let s : Started := ⟨notargets, nolb, uns udpEncap, uns hashMode, flow && (Cmd.valueOf vars "promiscuous_ping".toList).isNone, uns mtu, inject, uns hsize, uns buckets, uns frags, uns ttl,
      if reass > 0 then some (uns reass) else none, uns qlen, []⟩
    makePools e s
    match Cmd.valueOf vars "queue".toList with
    | none => .ub
    | some q => do
      let qs ← queues e.thread q
      return { s with queues := qs }

/-- The program on a command line, /repo/src/nfqlb/cmdLb.c:123-245 and /repo/src/nfqlb/cmdFlowLb.c:239-368. -/
def startArgv (flow : Bool) (e : Env) (argv : List Str) : Res Started := do
  let (vars, _) ← Cmd.parseOrDie (if flow then Cmd.flowLbOpts else Cmd.lbOpts) argv
  start flow e vars

/-- The table of fragments at the start. /repo/src/nfqlb/cmdLb.c:211-219 and /repo/src/nfqlb/cmdFlowLb.c:330-338. -/
def Started.table (s : Started) : Frag.Ft := Frag.create s.hsize s.buckets s.frags s.mtu s.ttl s.reass.isSome

end Nfqlb.Start
