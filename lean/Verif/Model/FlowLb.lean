import Verif.Model.Lb
import Verif.Model.Flow

/-! Model of `nfqlb flowlb`, /repo/src/nfqlb/cmdFlowLb.c: load-balancers and their reference counters, the commands `set` and `delete`, and the packet handler.

A pointer to a load-balancer is a number, 0 is NULL; every allocation returns a new number, so that the use of a freed one is seen. Each function of the load-balancer list is one
step here; what several threads can do between the accesses in them is in `Verif/Model/LbRace.lean`. Log messages and traces are left out. -/

namespace Nfqlb.FlowLb

open Nfqlb

/-- `struct LoadBalancer`, /repo/src/nfqlb/cmdFlowLb.c:52-59. `seg` is the number of the shared memory that is mapped (`fd`, `st` and `magd`); what is in it is in `Env`. -/
structure LB where
  refCounter : Int
  target : List Char
  seg : Nat
  deriving Repr, DecidableEq

/-- What other processes provide: which shared memory has a name, if any, and the tables in them. It may be different at any time. Mapped in /repo/src/nfqlb/cmdFlowLb.c:419-460. -/
structure Env where
  shm : List Char → Option Nat
  mag : Nat → Maglev.Mag

/-- The statics that the commands use, /repo/src/nfqlb/cmdFlowLb.c:73-75: `fset`, `lblist` (the `next` pointers give the list), and the load-balancers that are allocated. -/
structure St where
  fset : Flow.FlowSet
  lblist : List Nat
  heap : Nat → Option LB
  next : Nat

/-- The start, /repo/src/nfqlb/cmdFlowLb.c:75 and :292-294. -/
def start (ping : Bool) : St := ⟨Flow.flowSetPromiscuousPing Flow.flowSetCreate ping, [], fun _ => none, 1⟩

/-- Writing a load-balancer. `struct LoadBalancer` in /repo/src/nfqlb/cmdFlowLb.c:378-459. -/
def setLB (heap : Nat → Option LB) (p : Nat) (x : Option LB) : Nat → Option LB := fun q => if q = p then x else heap q

/-- `loadbalancerLock`, /repo/src/nfqlb/cmdFlowLb.c:378-382: undefined for NULL and for a freed load-balancer. -/
def lock (st : St) (p : Nat) : Res St :=
  match st.heap p with
  | none => .ub
  | some lb => .ok { st with heap := setLB st.heap p (some { lb with refCounter := lb.refCounter + 1 }) }

/-- `loadbalancerRelease`, /repo/src/nfqlb/cmdFlowLb.c:383-417. `fstat` does not fail here. -/
def release (st : St) (p : Nat) : Res St :=
  if p = 0 then .ok st
  else match st.heap p with
    | none => .ub
    | some lb =>
      let r := lb.refCounter - 1
      if r < 0 then .die
      else if r = 0 then .ok { st with lblist := st.lblist.erase p, heap := setLB st.heap p none }
      else .ok { st with heap := setLB st.heap p (some { lb with refCounter := r }) }

/-- The search, /repo/src/nfqlb/cmdFlowLb.c:428-435: undefined if it comes to a freed load-balancer. -/
def search (heap : Nat → Option LB) (target : List Char) : List Nat → Res (Option Nat)
  | [] => .ok none
  | p :: r =>
    match heap p with
    | none => .ub
    | some lb => if lb.target = target then .ok (some p) else search heap target r

/-- `loadbalancerFindOrCreate`, /repo/src/nfqlb/cmdFlowLb.c:419-460. -/
def findOrCreate (env : Env) (st : St) (target : Option (List Char)) : Res (St × Nat) :=
  match target with
  | none => .ok (st, 0)
  | some target => do
    match ← search st.heap target st.lblist with
    | some p => do
      let st ← lock st p
      return (st, p)
    | none =>
      match env.shm target with
      | none => return (st, 0)
      | some seg => return ({ st with lblist := st.next :: st.lblist, heap := setLB st.heap st.next (some ⟨1, target, seg⟩), next := st.next + 1 }, st.next)

/-- `struct FlowCmd`, /repo/src/nfqlb/nfqlb.h:56-68, without `action`. Lists end with NULL in the code. -/
structure Cmd where
  name : Option (List Char)
  target : Option (List Char)
  priority : Int
  protocols : Option (List (List Char))
  dports : Option (List Char)
  sports : Option (List Char)
  dsts : Option (List (List Char))
  srcs : Option (List (List Char))
  mtch : Option (List (List Char))
  udpencap : Nat
  deriving Repr, DecidableEq

/-- What is written to the client: `OK`; `alter`, /repo/src/nfqlb/cmdFlowLb.c:581; `newLb`, :587; `lb`, :597; `sctp`, :608; `define`, a message of `flowDefine`, :627 and :639; `name`, :660. -/
inductive Reply where
  | ok
  | alter
  | newLb
  | lb
  | sctp
  | define
  | name
  deriving Repr, DecidableEq

/-- `flowLookupName` with `lock_user_ref`, /repo/src/lib/flow.c:339-356: `strncmp` with a NULL name is undefined. -/
def lookupName (st : St) (name : Option (List Char)) : Res (St × Option (Nat × Nat)) :=
  match name with
  | none => if st.fset.flows = [] then .ok (st, none) else .ub
  | some name =>
    match Flow.flowLookupName st.fset name with
    | none => .ok (st, none)
    | some (p, udpencap) => do
      let st ← lock st p
      return (st, some (p, udpencap))

/-- The first part of `cmd_set`, /repo/src/nfqlb/cmdFlowLb.c:576-599: a reply, or the load-balancer for the flow. -/
def setLb (env : Env) (st : St) (c : Cmd) : Res (St × (Reply ⊕ Nat)) := do
  let (st, found) ← lookupName st c.name
  match found with
  | some (lb, udpencap) => do
    let st ← release st lb
    if udpencap ≠ c.udpencap then return (st, .inl .alter)
    else
      match st.heap lb, c.target with
      | some l, some target =>
        if target ≠ l.target then do
          let (st, newLb) ← findOrCreate env st (some target)
          if newLb = 0 then return (st, .inl .newLb)
          else do
            let st ← release st lb
            return (st, .inr newLb)
        else return (st, .inr lb)
      | _, _ => .ub
  | none => do
    let (st, lb) ← findOrCreate env st c.target
    if lb = 0 then return (st, .inl .lb) else return (st, .inr lb)

/-- `strncpy(udpname+1, cmd->name, MAX_CMD_LINE-2)` with `udpname[0] = '#'`, /repo/src/nfqlb/cmdFlowLb.c:617-619 and :653-655: undefined for NULL, and if there is no room for the NUL, because byte 1023 of
the buffer is not set. -/
def udpName (name : Option (List Char)) : Res (List Char) :=
  match name with
  | none => .ub
  | some n => if n.length ≥ 1022 then .ub else .ok ('#' :: n)

/-- The arguments of `flowDefine` for the encapsulating UDP packets, /repo/src/nfqlb/cmdFlowLb.c:620-625. -/
def udpArgs (c : Cmd) (name : List Char) : Flow.Args where
  name := some name
  priority := c.priority
  userRef := 0
  protocols := some ["udp".toList]
  dports := some (Nat.toDigits 10 c.udpencap)
  sports := none
  dsts := c.dsts
  srcs := c.srcs
  mtch := none
  udpencap := c.udpencap

/-- The arguments of `flowDefine` for the flow, /repo/src/nfqlb/cmdFlowLb.c:632-635. -/
def flowArgs (c : Cmd) (lb : Nat) : Flow.Args where
  name := c.name
  priority := c.priority
  userRef := lb
  protocols := c.protocols
  dports := c.dports
  sports := c.sports
  dsts := c.dsts
  srcs := c.srcs
  mtch := c.mtch
  udpencap := c.udpencap

/-- The test of the protocols, /repo/src/nfqlb/cmdFlowLb.c:606-607. -/
def sctpOnly (protocols : Option (List (List Char))) : Bool :=
  match protocols with
  | some [p] => CText.caseEq p "sctp".toList
  | _ => false

/-- The second part of `cmd_set`, /repo/src/nfqlb/cmdFlowLb.c:601-630: a reply, or `none` to go on. -/
def setUdp (rq : (Nat → Nat) → List Nat → List Nat) (fq : List Flow.Flow → List Flow.Flow) (st : St) (c : Cmd) : Res (St × Option Reply) :=
  if c.udpencap = 0 then .ok (st, none)
  else if sctpOnly c.protocols = false then .ok (st, some .sctp)
  else do
    let name ← udpName c.name
    let (fset, ok) ← Flow.flowDefine rq fq st.fset (udpArgs c name)
    return ({ st with fset := fset }, if ok then none else some .define)

/-- The last part of `cmd_set`, /repo/src/nfqlb/cmdFlowLb.c:632-639. -/
def setFlow (rq : (Nat → Nat) → List Nat → List Nat) (fq : List Flow.Flow → List Flow.Flow) (st : St) (c : Cmd) (lb : Nat) : Res (St × Reply) := do
  let (fset, ok) ← Flow.flowDefine rq fq st.fset (flowArgs c lb)
  return ({ st with fset := fset }, if ok then .ok else .define)

/-- `cmd_set`, /repo/src/nfqlb/cmdFlowLb.c:570-640, without packets in between. -/
def cmdSet (rq : (Nat → Nat) → List Nat → List Nat) (fq : List Flow.Flow → List Flow.Flow) (env : Env) (st : St) (c : Cmd) : Res (St × Reply) := do
  let (st, r) ← setLb env st c
  match r with
  | .inl reply => return (st, reply)
  | .inr lb => do
    let (st, r) ← setUdp rq fq st c
    match r with
    | some reply => return (st, reply)
    | none => setFlow rq fq st c lb

/-- `cmd_delete`, /repo/src/nfqlb/cmdFlowLb.c:642-662. -/
def cmdDelete (st : St) (name : Option (List Char)) : Res (St × Reply) :=
  match name with
  | none => .ok (st, .name)
  | some n => do
    let (fset, lb, udpencap) ← Flow.flowDelete st.fset n
    let st ← release { st with fset := fset } lb
    match udpencap with
    | none => return (st, .ok)
    | some e =>
      if e > 0 then do
        let u ← udpName (some n)
        let (fset, _) ← Flow.flowDelete st.fset u
        return ({ st with fset := fset }, .ok)
      else return (st, .ok)

/-- The statics that the packet handler uses besides those in `St`, /repo/src/nfqlb/cmdFlowLb.c:71-79. -/
structure Conf where
  hashMode : Nat
  notargets : Int
  nolb : Int
  tier : Option (Maglev.Mag × Int)

/-- `flowLookup` with `lock_user_ref`, /repo/src/lib/flow.c:435-456. -/
def lookup (st : St) (key : Key) (l3proto : Nat) (data : Packet) (udpencap : Nat) : Res (St × Nat × Nat) := do
  let (lb, udpencap) ← Flow.flowLookup st.fset key l3proto data udpencap
  if lb = 0 then return (st, 0, udpencap)
  else do
    let st ← lock st lb
    return (st, lb, udpencap)

/-- Where the packet handler is: it has decided; or it has a load-balancer, /repo/src/nfqlb/cmdFlowLb.c:184, with the last result of `getHashKey`. -/
inductive Pkt where
  | done (a : LbAction)
  | has (lb : Nat) (p : Parsed)
  deriving Repr, DecidableEq

/-- The test for encapsulated SCTP, /repo/src/nfqlb/cmdFlowLb.c:159. -/
def isEncap (k : Key) (udpencap : Nat) : Bool := decide (Flow.protoNum k = 17 ∧ ntohs k.dport = udpencap)

/-- The two lookups, /repo/src/nfqlb/cmdFlowLb.c:133-183. -/
def pktLookup (conf : Conf) (st : St) (proto : Nat) (data : Packet) (p : Parsed) : Res (St × Pkt) := do
  let (st, lb, udpencap) ← lookup st p.key proto data 0
  if isEncap p.key udpencap = true then do
    let p ← getHashKey udpencap proto data
    if p.rc < 0 then return (st, .done (.verdict (-1)))
    else do
      let (st, lb, _) ← lookup st p.key proto data 0
      if lb = 0 then return (st, .done (.verdict conf.nolb)) else return (st, .has lb p)
  else if lb = 0 then return (st, .done (.verdict conf.nolb))
  else return (st, .has lb p)

/-- `packetHandleFn`, /repo/src/nfqlb/cmdFlowLb.c:93-183. -/
def pktBegin (conf : Conf) (st : St) (proto : Nat) (data : Packet) : Res (St × Pkt) := do
  let p ← getHashKey 0 proto data
  if p.rc < 0 then return (st, .done (.verdict (-1)))
  else do
    let redirect ← if p.rc % 4 ≠ 0 then tierRedirect conf.tier p.key else .ok none
    match redirect with
    | some fw => return (st, .done (.verdict fw))
    | none =>
      if p.rc % 4 ≠ 0 ∧ p.rc % 2 = 0 then return (st, .done (.later p.key))
      else pktLookup conf st proto data p

/-- The rest of `packetHandleFn`, /repo/src/nfqlb/cmdFlowLb.c:185-213 and :230, with a load-balancer. -/
def pktEnd (conf : Conf) (env : Env) (st : St) (lb : Nat) (p : Parsed) : Res (St × LbAction) :=
  match st.heap lb with
  | none => .ub
  | some l => do
    let fw ← Maglev.target (env.mag l.seg) (hashKey p.key conf.hashMode)
    let st ← release st lb
    if fw < 0 then return (st, .verdict conf.notargets)
    else if p.rc % 2 = 1 then do
      let k ← withFragid p
      return (st, .first k fw)
    else return (st, .verdict fw)

/-- `packetHandleFn` as a whole, /repo/src/nfqlb/cmdFlowLb.c:93-231. -/
def pktHandle (conf : Conf) (env : Env) (st : St) (proto : Nat) (data : Packet) : Res (St × LbAction) := do
  let (st, r) ← pktBegin conf st proto data
  match r with
  | .done a => return (st, a)
  | .has lb p => pktEnd conf env st lb p

/-- What happens: a command, a packet that comes as far as its load-balancer, or one that goes on from there. /repo/src/nfqlb/cmdFlowLb.c:93-231 and the commands in /repo/src/nfqlb/cmdFlowLb.c:484-568. -/
inductive Ev where
  | set (env : Env) (c : Cmd)
  | delete (name : Option (List Char))
  | arrive (proto : Nat) (data : Packet)
  | finish (env : Env) (i : Nat)

/-- The state, and the packets that have a load-balancer. /repo/src/nfqlb/cmdFlowLb.c:93-231. -/
structure Sys where
  st : St
  held : List (Nat × Parsed)

/-- One event. /repo/src/nfqlb/cmdFlowLb.c:93-231 and the commands in /repo/src/nfqlb/cmdFlowLb.c:570-662. -/
def step (rq : (Nat → Nat) → List Nat → List Nat) (fq : List Flow.Flow → List Flow.Flow) (conf : Conf) (s : Sys) : Ev → Res Sys
  | .set env c => do
    let (st, _) ← cmdSet rq fq env s.st c
    return { s with st := st }
  | .delete name => do
    let (st, _) ← cmdDelete s.st name
    return { s with st := st }
  | .arrive proto data => do
    let (st, r) ← pktBegin conf s.st proto data
    match r with
    | .done _ => return { s with st := st }
    | .has lb p => return ⟨st, (lb, p) :: s.held⟩
  | .finish env i =>
    match s.held[i]? with
    | none => .ok s
    | some (lb, p) => do
      let (st, _) ← pktEnd conf env s.st lb p
      return ⟨st, s.held.eraseIdx i⟩

/-- A sequence of events. /repo/src/nfqlb/cmdFlowLb.c:93-231 and /repo/src/nfqlb/cmdFlowLb.c:484-568. -/
def run (rq : (Nat → Nat) → List Nat → List Nat) (fq : List Flow.Flow → List Flow.Flow) (conf : Conf) (s : Sys) : List Ev → Res Sys
  | [] => .ok s
  | e :: es => do
    let s ← step rq fq conf s e
    run rq fq conf s es

end Nfqlb.FlowLb
