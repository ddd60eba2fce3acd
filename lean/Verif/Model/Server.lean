import Verif.Model.RemoteCmd
import Verif.Model.FlowPrint

/-! Model of the control server of `nfqlb flowlb`, /repo/src/nfqlb/cmdFlowLb.c:484-568 and :664-695: connections one after the other, each with the bytes that the client sends before it closes its side, and packets between them. `accept`, `fdopen` and
`dup` do not fail here; the `D(…)` lines print to the standard output for debugging and are left out. -/

namespace Nfqlb.Server

open Nfqlb Nfqlb.Remote

/-- A connection: what other processes provide at that time; `match_count` of the flows at that time; the bytes that arrive; whether the client has gone (closed the socket) before the answer is written,
/repo/src/nfqlb/cmdFlowLb.c:513-566. -/
structure Conn where
  env : FlowLb.Env
  cnt : Flow.Flow → Nat
  bytes : List Char
  gone : Bool

/-- The state: `fset` and `lblist`; `trace_fset` (/repo/src/nfqlb/cmdFlowLb.c:74); the copies of names that are allocated for it (:668), by pointer, never 0, and the next pointer; `cmd` (:503) and the memory for
requests. -/
structure Srv where
  st : FlowLb.St
  trace : Flow.FlowSet
  names : Nat → Option (List Char)
  nextName : Nat
  cmd : FlowCmd
  mem : Mem

/-- The start, /repo/src/nfqlb/cmdFlowLb.c:289-294 and :503. -/
def start (ping : Bool) : Srv where
  st := FlowLb.start ping
  trace := Flow.flowSetPromiscuousPing Flow.flowSetCreate true
  names := fun _ => none
  nextName := 1
  cmd := FlowCmd.zero
  mem := ⟨0, 0⟩

/-- What is written to the client: nothing (the connection is closed); one of the messages of `cmd_set` and `cmd_delete`; `FAIL: no action`, /repo/src/nfqlb/cmdFlowLb.c:529; `FAIL: action unknown`, :564 and :693; a message of
`flowDefine`, :676; `OK`, :682; `FAIL: no name`, :684; a list. -/
inductive Out where
  | nothing
  | reply (r : FlowLb.Reply)
  | noAction
  | unknown
  | refused
  | ok
  | noName
  | text (t : List Char)
  deriving Repr, DecidableEq

/-- `writeReply`, /repo/src/nfqlb/cmdFlowLb.c:469-474, and `fflush(out)`, :552: if the client has gone, writing to the socket raises SIGPIPE, which is not ignored (`signal` is called in /repo/src/lib/log.c:120 and :136 only, and there
the default is set again), and the process ends. Nothing is written if there is no text. -/
def send (gone : Bool) (o : Out) : Res Out := if gone = true ∧ o ≠ .text [] ∧ o ≠ .nothing then .die else .ok o

/-- `lb2string`, /repo/src/nfqlb/cmdFlowLb.c:476-482. -/
def lb2string (st : FlowLb.St) (p : Nat) : Res (List Char) :=
  if p = 0 then .ok "NULL".toList
  else match st.heap p with
    | none => .ub
    | some lb => .ok lb.target

/-- The arguments of `flowDefine` in `traceHandleFlowCmd`, /repo/src/nfqlb/cmdFlowLb.c:671-674. -/
def traceArgs (c : FlowCmd) (userRef : Nat) : Flow.Args where
  name := c.name
  priority := c.priority
  userRef := userRef
  protocols := c.protocols
  dports := c.dports
  sports := c.sports
  dsts := c.dsts
  srcs := c.srcs
  mtch := c.mtch
  udpencap := c.udpencap

/-- Writing an allocated name, /repo/src/nfqlb/cmdFlowLb.c:668 and :681. -/
def setName (names : Nat → Option (List Char)) (p : Nat) (x : Option (List Char)) : Nat → Option (List Char) := fun q => if q = p then x else names q

/-- `free(user_ref)`, /repo/src/nfqlb/cmdFlowLb.c:681: undefined if it is not allocated. -/
def freeName (s : Srv) (p : Nat) : Res Srv :=
  if p = 0 then .ok s
  else match s.names p with
    | none => .ub
    | some _ => .ok { s with names := setName s.names p none }

/-- `trace-set`, /repo/src/nfqlb/cmdFlowLb.c:666-677: `strdup(NULL)` is undefined. Nothing is written if the flow is accepted. -/
def traceSet (rq : (Nat → Nat) → List Nat → List Nat) (fq : List Flow.Flow → List Flow.Flow) (s : Srv) (c : FlowCmd) : Res (Srv × Out) :=
  match c.name with
  | none => .ub
  | some name => do
    let (trace, ok) ← Flow.flowDefine rq fq s.trace (traceArgs c s.nextName)
    let s := { s with trace := trace, names := setName s.names s.nextName (some name), nextName := s.nextName + 1 }
    return (s, if ok then .nothing else .refused)

/-- `trace-delete`, /repo/src/nfqlb/cmdFlowLb.c:678-685. -/
def traceDelete (s : Srv) (c : FlowCmd) : Res (Srv × Out) :=
  match c.name with
  | none => .ok (s, .noName)
  | some name => do
    let (trace, p, _) ← Flow.flowDelete s.trace name
    let s ← freeName { s with trace := trace } p
    return (s, .ok)

/-- `traceHandleFlowCmd`, /repo/src/nfqlb/cmdFlowLb.c:664-695. `cnt` is `match_count` of the flows. -/
def traceHandle (rq : (Nat → Nat) → List Nat → List Nat) (fq : List Flow.Flow → List Flow.Flow) (cnt : Flow.Flow → Nat) (s : Srv) (c : FlowCmd) (action : List Char) : Res (Srv × Out) :=
  if action = "trace-set".toList then traceSet rq fq s c
  else if action = "trace-delete".toList then traceDelete s c
  else if action = "trace-list".toList then do
    let t ← Flow.flowSetPrint s.trace c.name cnt none
    return (s, .text t)
  else if action = "trace-list-names".toList then .ok (s, .text (Flow.flowSetPrintNames s.trace))
  else .ok (s, .unknown)

/-- `cmd_set` in the server, /repo/src/nfqlb/cmdFlowLb.c:541-542. -/
def doSet (rq : (Nat → Nat) → List Nat → List Nat) (fq : List Flow.Flow → List Flow.Flow) (env : FlowLb.Env) (s : Srv) (c : FlowCmd) : Res (Srv × Out) := do
  let (st, r) ← FlowLb.cmdSet rq fq env s.st c.toCmd
  return ({ s with st := st }, .reply r)

/-- `cmd_delete` in the server, /repo/src/nfqlb/cmdFlowLb.c:543-544. -/
def doDelete (s : Srv) (c : FlowCmd) : Res (Srv × Out) := do
  let (st, r) ← FlowLb.cmdDelete s.st c.name
  return ({ s with st := st }, .reply r)

/-- A request that was read, /repo/src/nfqlb/cmdFlowLb.c:528-565. -/
def handle (rq : (Nat → Nat) → List Nat → List Nat) (fq : List Flow.Flow → List Flow.Flow) (cnt : Flow.Flow → Nat) (env : FlowLb.Env) (s : Srv) (c : FlowCmd) : Res (Srv × Out) :=
  match c.action with
  | none => .ok (s, .noAction)
  | some action =>
    if action.take 6 = "trace-".toList then traceHandle rq fq cnt s c action
    else if action = "set".toList then doSet rq fq env s c
    else if action = "delete".toList then doDelete s c
    else if action = "list".toList then do
      let t ← Flow.flowSetPrint s.st.fset c.name cnt (some (lb2string s.st))
      return (s, .text t)
    else if action = "list-names".toList then .ok (s, .text (Flow.flowSetPrintNames s.st.fset))
    else .ok (s, .unknown)

/-- Reading a request, /repo/src/nfqlb/cmdFlowLb.c:525-526. -/
def receive (s : Srv) (bytes : List Char) : Res (Srv × Bool) := do
  let r ← readFlowCmd bytes (freeFlowCmd s.cmd s.mem).2
  return ({ s with cmd := r.cmd, mem := r.mem }, decide (r.rc = 0))

/-- One turn of the loop in `flowThread`, /repo/src/nfqlb/cmdFlowLb.c:504-566. -/
def serve (rq : (Nat → Nat) → List Nat → List Nat) (fq : List Flow.Flow → List Flow.Flow) (s : Srv) (k : Conn) : Res (Srv × Out) := do
  let (s, complete) ← receive s k.bytes
  if complete = false then return (s, .nothing)
  else do
    let (s, o) ← handle rq fq k.cnt k.env s s.cmd
    let o ← send k.gone o
    return (s, o)

/-- The server, and the packets that have a load-balancer, /repo/src/nfqlb/cmdFlowLb.c:93-231. -/
structure Sys where
  srv : Srv
  held : List (Nat × Parsed)

/-- What happens: a connection to the server, /repo/src/nfqlb/cmdFlowLb.c:504-566; a packet that comes as far as its load-balancer, :93-183, or one that goes on from there, :185-231. -/
inductive Ev where
  | conn (k : Conn)
  | arrive (proto : Nat) (data : Packet)
  | finish (env : FlowLb.Env) (i : Nat)

/-- A packet: the trace flows have no part in it, /repo/src/nfqlb/cmdFlowLb.c:93-231. -/
def packet (rq : (Nat → Nat) → List Nat → List Nat) (fq : List Flow.Flow → List Flow.Flow) (conf : FlowLb.Conf) (s : Sys) (e : FlowLb.Ev) : Res (Sys × Out) := do
  let r ← FlowLb.step rq fq conf ⟨s.srv.st, s.held⟩ e
  return (⟨{ s.srv with st := r.st }, r.held⟩, .nothing)

/-- One event; with what is written to the client. The loop at /repo/src/nfqlb/cmdFlowLb.c:504-566, and the packets that other threads handle in between. -/
def step (rq : (Nat → Nat) → List Nat → List Nat) (fq : List Flow.Flow → List Flow.Flow) (conf : FlowLb.Conf) (s : Sys) : Ev → Res (Sys × Out)
  | .conn k => do
    let (srv, o) ← serve rq fq s.srv k
    return (⟨srv, s.held⟩, o)
  | .arrive proto data => packet rq fq conf s (.arrive proto data)
  | .finish env i => packet rq fq conf s (.finish env i)

/-- A sequence of events, with the answers, /repo/src/nfqlb/cmdFlowLb.c:504-566. -/
def run (rq : (Nat → Nat) → List Nat → List Nat) (fq : List Flow.Flow → List Flow.Flow) (conf : FlowLb.Conf) (s : Sys) : List Ev → Res (Sys × List Out)
  | [] => .ok (s, [])
  | e :: es => do
    let (s, o) ← step rq fq conf s e
    let (s, os) ← run rq fq conf s es
    return (s, o :: os)

end Nfqlb.Server
