import Verif.Model.RangeSet
import Verif.Model.Match

/-! Model of the flows /repo/src/lib/flow.c. Memory allocation succeeds. Each range set has a heap of its own. Pointers to user data (`user_ref`) are numbers, NULL is 0. The counter `match_count` and the printing of
flows as JSON are not modelled here. Every function that uses a set holds its lock, so the functions are atomic. -/

namespace Nfqlb.Flow

/-- `struct Cidr`, /repo/src/lib/flow.c:27-30; the two 64-bit words of the mask are kept as the 16 bytes in memory. -/
structure Cidr where
  adr : List UInt8
  mask : List UInt8
  deriving Repr, DecidableEq

/-- A port set, `struct RangeSet*` in /repo/src/lib/flow.c:37-38, with its heap. -/
structure Ports where
  heap : RS.Heap
  set : RS.RangeSet

/-- `struct Flow`, /repo/src/lib/flow.c:32-44, without `match_count`. `none` is a NULL pointer. -/
structure Flow where
  name : List Char
  priority : Int
  userRef : Nat
  protocols : Option (List Nat)
  dports : Option Ports
  sports : Option Ports
  dsts : Option (List Cidr)
  srcs : Option (List Cidr)
  mtch : Option Match.Match
  udpencap : Nat

/-- `struct FlowSet`, /repo/src/lib/flow.c:46-52. The array is a list; the NULL after it is not kept. -/
structure FlowSet where
  flows : List Flow
  ping : Bool

/-- `flowSetCreate`, /repo/src/lib/flow.c:60-68. -/
def flowSetCreate : FlowSet := ⟨[], false⟩

/-- `flowSetPromiscuousPing`, /repo/src/lib/flow.c:69-72. -/
def flowSetPromiscuousPing (set : FlowSet) (value : Bool) : FlowSet := { set with ping := value }

/-- `rangeSetDestroy` of a pointer that may be NULL, /repo/src/lib/flow.c:80-81 and /repo/src/lib/rangeset.c:68-75. -/
def freePorts : Option Ports → Res Unit
  | none => .ok ()
  | some p => do
    let _ ← RS.rangeSetDestroy p.heap p.set
    return ()

/-- `flowFree`, /repo/src/lib/flow.c:73-85: what can go wrong is in the range sets. -/
def flowFree (f : Flow) : Res Unit := do
  freePorts f.dports
  freePorts f.sports

/-- The difference of two `int` overflows. /repo/src/lib/flow.c:106-111. -/
def diffOverflows (a b : Int) : Bool := decide (a - b < -2147483648 ∨ 2147483647 < a - b)

/-- `qsort(…, cmpFlows)`, /repo/src/lib/flow.c:106-111 and :305. `qs` is any function that sorts. If the difference of two priorities in the array overflows in `cmpFlows` the behaviour is undefined (the comparison of
this pair may be left out by `qsort`, if there are more than two flows). -/
def sortFlows (qs : List Flow → List Flow) (flows : List Flow) : Res (List Flow) :=
  if flows.any (fun f => flows.any (fun g => diffOverflows f.priority g.priority)) = true then .ub else .ok (qs flows)

/-- `parseProtocol`, /repo/src/lib/flow.c:113-139, for an argument that is not NULL. `none` is NULL. -/
def parseProtocol (argv : List (List Char)) : Option (List Nat) :=
  if argv.all (fun s => CText.caseEq "tcp".toList s || CText.caseEq "udp".toList s || CText.caseEq "sctp".toList s) = true then
    some ((if argv.any (CText.caseEq "tcp".toList) then [6] else []) ++ (if argv.any (CText.caseEq "udp".toList) then [17] else []) ++
      (if argv.any (CText.caseEq "sctp".toList) then [132] else []))
  else none

/-- `maskAdr`, /repo/src/lib/flow.c:141-146; AND of 64-bit words in memory is AND of the bytes. -/
def maskAdr (adr mask : List UInt8) : List UInt8 := List.zipWith (· &&& ·) adr mask

/-- The 8 bytes in memory of `htobe64(x)`, /repo/src/lib/flow.c:188 and :193. -/
def be64 (x : Nat) : List UInt8 := (List.range 8).map (fun i => UInt8.ofNat (x / 256 ^ (7 - i)))

/-- `UINT64_MAX << n`, /repo/src/lib/flow.c:188 and :193; undefined for 64 or more. -/
def shl64 (n : Nat) : Res Nat := if n ≥ 64 then .ub else .ok (u64 (18446744073709551615 * 2 ^ n))

/-- The bit-mask, /repo/src/lib/flow.c:186-195. -/
def bitMask (mask : Nat) : Res (List UInt8) :=
  if mask > 64 then do
    let x ← shl64 (128 - mask)
    return be64 18446744073709551615 ++ be64 x
  else if mask = 0 then .ok (be64 0 ++ be64 0)
  else do
    let x ← shl64 (64 - mask)
    return be64 x ++ be64 0

/-- The buffer `s[128]`, /repo/src/lib/flow.c:163-171. `snprintf` cuts at 127 characters. `strncpy` of 128 or more characters leaves no NUL in the buffer, and the following functions read outside of it. -/
def cidrBuf (arg : List Char) : Res (List Char) :=
  if ':' ∈ arg then (if arg.length ≥ 128 then .ub else .ok arg) else .ok (("::ffff:".toList ++ arg).take 127)

/-- One turn of the loop in `parseCidrs`, /repo/src/lib/flow.c:163-197. `none` is `goto bailout`. -/
def parseCidr (arg : List Char) : Res (Option Cidr) := do
  let s ← cidrBuf arg
  match CText.strchr '/' s with
  | none => return none
  | some r =>
    match CText.scanU (r.drop 1) with
    | none => return none
    | some (m, _) =>
      let mask := if ':' ∈ arg then m else u32 (m + 96)
      if mask > 128 then return none
      else
        match CText.pton6 (s.takeWhile (fun c => c != '/')) with
        | none => return none
        | some adr => do
          let bits ← bitMask mask
          return some ⟨maskAdr adr bits, bits⟩

/-- The loop of `parseCidrs`, /repo/src/lib/flow.c:162-198. -/
def cidrLoop : List (List Char) → Res (Option (List Cidr))
  | [] => .ok (some [])
  | a :: r => do
    match ← parseCidr a with
    | none => return none
    | some c =>
      match ← cidrLoop r with
      | none => return none
      | some cs => return some (c :: cs)

/-- `parseCidrs`, /repo/src/lib/flow.c:148-204, for an argument that is not NULL. -/
def parseCidrs (argv : List (List Char)) : Res (Option (List Cidr)) :=
  if argv.length = 0 then .ok none else if argv.length > 32 then .ok none else cidrLoop argv

/-- The arguments of `flowDefine`, /repo/src/lib/flow.c:207-218. `none` is a NULL pointer. -/
structure Args where
  name : Option (List Char)
  priority : Int
  userRef : Nat
  protocols : Option (List (List Char))
  dports : Option (List Char)
  sports : Option (List Char)
  dsts : Option (List (List Char))
  srcs : Option (List (List Char))
  mtch : Option (List (List Char))
  udpencap : Nat

/-- An empty heap, for `rangeSetCreateLimited`. /repo/src/lib/flow.c:240 and :246. -/
def noHeap : RS.Heap := ⟨fun _ => none, 0⟩

/-- Defining ports, /repo/src/lib/flow.c:240-243 and :246-249: the set, and whether it was accepted. `rq` is `qsort` in `rangeSetUpdate`. -/
def definePorts (rq : (Nat → Nat) → List Nat → List Nat) (s : List Char) : Res (Ports × Bool) :=
  match RS.rangeSetCreateLimited 1 65535 with
  | none => .ub
  | some t =>
    let (h, t, r) := RS.rangeSetAddStr noHeap t s
    if r ≠ 0 then .ok (⟨h, t⟩, false)
    else do
      let (h, t) ← RS.rangeSetUpdate rq h t
      return (⟨h, t⟩, true)

/-- The parts of `flowDefine` that fill in the new flow, /repo/src/lib/flow.c:228-271, one for each field. The result is the flow so far, and whether to go on (otherwise `goto bailout`). -/
def stProtocols (a : Args) (f : Flow) : Res (Flow × Bool) :=
  match a.protocols with
  | none => .ok (f, true)
  | some l =>
    match parseProtocol l with
    | none => .ok (f, false)
    | some ps => .ok ({ f with protocols := some ps }, true)

/-- /repo/src/lib/flow.c:238-244 -/
def stDports (rq : (Nat → Nat) → List Nat → List Nat) (a : Args) (f : Flow) : Res (Flow × Bool) :=
  match a.dports with
  | none => .ok (f, true)
  | some s => do
    let (p, ok) ← definePorts rq s
    return ({ f with dports := some p }, ok)

/-- /repo/src/lib/flow.c:245-250 -/
def stSports (rq : (Nat → Nat) → List Nat → List Nat) (a : Args) (f : Flow) : Res (Flow × Bool) :=
  match a.sports with
  | none => .ok (f, true)
  | some s => do
    let (p, ok) ← definePorts rq s
    return ({ f with sports := some p }, ok)

/-- /repo/src/lib/flow.c:252-256 -/
def stDsts (a : Args) (f : Flow) : Res (Flow × Bool) :=
  match a.dsts with
  | none => .ok (f, true)
  | some l => do
    match ← parseCidrs l with
    | none => return (f, false)
    | some cs => return ({ f with dsts := some cs }, true)

/-- /repo/src/lib/flow.c:257-261 -/
def stSrcs (a : Args) (f : Flow) : Res (Flow × Bool) :=
  match a.srcs with
  | none => .ok (f, true)
  | some l => do
    match ← parseCidrs l with
    | none => return (f, false)
    | some cs => return ({ f with srcs := some cs }, true)

/-- /repo/src/lib/flow.c:263-271 -/
def stMatch (a : Args) (f : Flow) : Res (Flow × Bool) :=
  match a.mtch with
  | none => .ok (f, true)
  | some l => do
    match ← Match.matchAddAll [] l with
    | none => return (f, false)
    | some m => return ({ f with mtch := some m }, true)

/-- Go on with the next part, or not. The `goto` or `return` after each part of /repo/src/lib/flow.c:207-312. -/
def next (r : Res (Flow × Bool)) (k : Flow → Res (Flow × Bool)) : Res (Flow × Bool) := do
  let (f, ok) ← r
  if ok = true then k f else return (f, false)

/-- `flowDefine` up to the write lock, /repo/src/lib/flow.c:228-275; a flow that is not accepted is freed (:309-310). -/
def build (rq : (Nat → Nat) → List Nat → List Nat) (a : Args) (name : List Char) : Res (Option Flow) := do
  let f : Flow := ⟨name.take 1024, a.priority, a.userRef, none, none, none, none, none, none, a.udpencap⟩
  let (f, ok) ← next (next (next (next (next (stProtocols a f) (stDports rq a)) (stSports rq a)) (stDsts a)) (stSrcs a)) (stMatch a)
  if ok = true then return some f
  else do
    flowFree f
    return none

/-- `strncmp(a, b, MAX_NAME) == 0`, /repo/src/lib/flow.c:284, :321 and :345. -/
def sameName (a b : List Char) : Bool := a.take 1024 == b.take 1024

/-- Replacing the first flow with the name, or adding a flow at the end, /repo/src/lib/flow.c:281-302: the array, and the flow that was replaced. -/
def putFlow (f : Flow) (name : List Char) : List Flow → List Flow × Option Flow
  | [] => ([f], none)
  | g :: r =>
    if sameName g.name name then (f :: r, some g)
    else
      let (r, old) := putFlow f name r
      (g :: r, old)

/-- `flowFree` of the flow replaced, /repo/src/lib/flow.c:294. -/
def freeOld : Option Flow → Res Unit
  | none => .ok ()
  | some f => flowFree f

/-- `flowDefine`, /repo/src/lib/flow.c:207-312: the set, and whether the flow was accepted (`return 0`). -/
def flowDefine (rq : (Nat → Nat) → List Nat → List Nat) (fq : List Flow → List Flow) (set : FlowSet) (a : Args) : Res (FlowSet × Bool) :=
  match a.name with
  | none => .ok (set, false)
  | some name =>
    if name.length ≥ 1024 then .ok (set, false)
    else do
      match ← build rq a name with
      | none => return (set, false)
      | some f =>
        let (flows, old) := putFlow f name set.flows
        freeOld old
        let flows ← sortFlows fq flows
        return ({ set with flows := flows }, true)

/-- Taking the first flow with the name out of the array, /repo/src/lib/flow.c:320-333. -/
def takeFlow (name : List Char) : List Flow → Option (Flow × List Flow)
  | [] => none
  | g :: r =>
    if sameName g.name name then some (g, r)
    else
      match takeFlow name r with
      | some (f, r) => some (f, g :: r)
      | none => none

/-- `flowDelete`, /repo/src/lib/flow.c:315-337: the set, the value returned, and `*udpencap` if it was set. -/
def flowDelete (set : FlowSet) (name : List Char) : Res (FlowSet × Nat × Option Nat) :=
  match takeFlow name set.flows with
  | none => .ok (set, 0, none)
  | some (f, r) => do
    flowFree f
    return ({ set with flows := r }, f.userRef, some f.udpencap)

/-- `flowLookupName`, /repo/src/lib/flow.c:339-356: `none` if there is no such flow, otherwise its `user_ref`, for which `lock_user_ref` was called, and its `udpencap`. -/
def flowLookupName (set : FlowSet) (name : List Char) : Option (Nat × Nat) :=
  match set.flows.find? (fun f => sameName f.name name) with
  | none => none
  | some f => some (f.userRef, f.udpencap)

/-- `addrInCidr`, /repo/src/lib/flow.c:358-362. -/
def addrInCidr (c : Cidr) (adr : List UInt8) : Bool := decide (c.adr = maskAdr adr c.mask)

/-- `f->dsts != NULL` and so on, /repo/src/lib/flow.c:373-394: whether the address passes. -/
def addrPasses (cs : Option (List Cidr)) (adr : List UInt8) : Bool :=
  match cs with
  | none => true
  | some cs => cs.any (fun c => addrInCidr c adr)

/-- `ntohs(key->ports.dst)` in a set that may be NULL, /repo/src/lib/flow.c:414-421. -/
def portPasses (p : Option Ports) (port : Raw16) : Res Bool :=
  match p with
  | none => .ok true
  | some p => RS.rangeSetIn p.heap p.set (ntohs port)

/-- `key->ports.proto` as a number (host byte order, little-endian), /repo/src/lib/flow.c:397, :406 and :423. -/
def protoNum (k : Key) : Nat := k.proto.1.toNat + 256 * k.proto.2.toNat

/-- The test for protocols, /repo/src/lib/flow.c:403-413. -/
def protoPasses (ps : Option (List Nat)) (k : Key) : Bool :=
  match ps with
  | none => true
  | some ps => ps.any (fun p => decide (protoNum k = p))

/-- The byte match, /repo/src/lib/flow.c:422-425; `data` is empty if it is NULL or `len` is 0. -/
def matchPasses (m : Option Match.Match) (l3proto : Nat) (k : Key) (data : Packet) : Res Bool :=
  match m with
  | none => .ok true
  | some m => if data = [] then .ok true else Match.matchMatches (some m) l3proto (protoNum k) data

/-- What `flowMatch` does: `no`: `return NULL` because a test failed; `ping`: a match by promiscuous ping, `*udpencap` is not written; `yes`: a match. /repo/src/lib/flow.c:364-432. -/
inductive Verdict where
  | no
  | ping
  | yes
  deriving Repr, DecidableEq

/-- `flowMatch`, /repo/src/lib/flow.c:364-432. It returns `f->user_ref` for `ping` and `yes`. -/
def flowMatch (key : Key) (f : Flow) (ping : Bool) (l3proto : Nat) (data : Packet) : Res Verdict :=
  if addrPasses f.dsts key.dst = false then .ok .no
  else if addrPasses f.srcs key.src = false then .ok .no
  else if ping = true ∧ (protoNum key = 1 ∨ protoNum key = 58) ∧ key.idBytes ≠ List.replicate 8 0 then .ok .ping
  else if protoPasses f.protocols key = false then .ok .no
  else do
    if ← portPasses f.dports key.dport then
      if ← portPasses f.sports key.sport then
        if ← matchPasses f.mtch l3proto key data then return .yes
        else return .no
      else return .no
    else return .no

/-- The loop of `flowLookup`, /repo/src/lib/flow.c:442-453: the value returned and `*udpencap` afterwards. `lock_user_ref` is called for the value returned if it is not NULL. -/
def lookupLoop (key : Key) (ping : Bool) (l3proto : Nat) (data : Packet) : List Flow → Nat → Res (Nat × Nat)
  | [], udpencap => .ok (0, udpencap)
  | f :: r, udpencap => do
    let v ← flowMatch key f ping l3proto data
    let udpencap := if v = .yes then f.udpencap else udpencap
    if v ≠ .no ∧ f.userRef ≠ 0 then return (f.userRef, udpencap)
    else lookupLoop key ping l3proto data r udpencap

/-- `flowLookup`, /repo/src/lib/flow.c:435-456. `udpencap` is `*udpencap` before the call. -/
def flowLookup (set : FlowSet) (key : Key) (l3proto : Nat) (data : Packet) (udpencap : Nat) : Res (Nat × Nat) := lookupLoop key set.ping l3proto data set.flows udpencap

/-- The calls that change a set. /repo/src/lib/flow.c:207-312 and /repo/src/lib/flow.c:315-337. -/
inductive Op where
  | define (a : Args)
  | delete (name : List Char)
  | ping (value : Bool)

/-- One call. /repo/src/lib/flow.c:207-312 and /repo/src/lib/flow.c:315-337. -/
def step (rq : (Nat → Nat) → List Nat → List Nat) (fq : List Flow → List Flow) (set : FlowSet) : Op → Res FlowSet
  | .define a => do
    let (set, _) ← flowDefine rq fq set a
    return set
  | .delete name => do
    let (set, _) ← flowDelete set name
    return set
  | .ping v => .ok (flowSetPromiscuousPing set v)

/-- A sequence of calls. /repo/src/lib/flow.c:207-312 and /repo/src/lib/flow.c:315-337, one after the other. -/
def run (rq : (Nat → Nat) → List Nat → List Nat) (fq : List Flow → List Flow) (set : FlowSet) : List Op → Res FlowSet
  | [] => .ok set
  | o :: os => do
    let set ← step rq fq set o
    run rq fq set os

end Nfqlb.Flow
