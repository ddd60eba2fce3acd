import Verif.Model.Addr

/-!
Where the servers of `nfqlb` listen and where the clients connect: the starts of `traceServerThread` (/repo/src/lib/log.c:82-96) and of `flowThread` (/repo/src/nfqlb/cmdFlowLb.c:484-503), `connectToLb`
(/repo/src/nfqlb/remoteCmd.c:87-103) and the connection of `nfqlb trace` (/repo/src/nfqlb/cmdTrace.c:75-84), for any number of processes on one host. The kernel decides which addresses exclude each other and which listener a
client reaches; that is a parameter (`Net`), what is expected of it is in `Spec/Sock.lean`. Simplified: `socket`, `listen` and `pthread_create` do not fail; the two threads of a process get to `bind` in the order in which they are
created; what is said on the connections is in `Model/Session.lean` and `Model/Client.lean`.
-/

set_option autoImplicit false

namespace Nfqlb.Sock

open Nfqlb Nfqlb.Addr

/-- The first `len` bytes of a `struct sockaddr_storage`, given to `bind` or `connect` (/repo/src/lib/log.c:93, /repo/src/nfqlb/remoteCmd.c:100). -/
abbrev Adr := List UInt8

/-- `getenv("NFQLB_FLOW_ADDRESS")` or else DEFAULT_FLOW_ADDRESS: the server (/repo/src/nfqlb/cmdFlowLb.c:489-491) and the clients (/repo/src/nfqlb/remoteCmd.c:92-94, /repo/src/nfqlb/nfqlb.h:42). -/
def flowText (env : Option Str) : Str := env.getD "unix:nfqlb".toList

/-- `--trace_address`, /repo/src/nfqlb/cmdFlowLb.c:256 and :277, /repo/src/nfqlb/cmdLb.c:140 and :160, /repo/src/nfqlb/cmdTrace.c:42 and :51, or else DEFAULT_TRACE_ADDRESS (/repo/src/nfqlb/nfqlb.h:103). An option without value is
refused before (C75). -/
def traceText (opt : Option Str) : Str := opt.getD "unix:nfqlb-trace".toList

/-- The address that the servers and clients compute: `parseAddress` into an uninitialised `struct sockaddr_storage` of 128 bytes, then its family (at `socket`) and `len` bytes are used. /repo/src/lib/log.c:85-93,
/repo/src/nfqlb/cmdFlowLb.c:486-498, /repo/src/nfqlb/remoteCmd.c:89-100, /repo/src/nfqlb/cmdTrace.c:75-84. -/
def address (gai : Gai) (text : Str) : Res Adr := do
  match ← parseAddress gai text (List.replicate 128 none) with
  | none => .die
  | some (buf, len) => readN buf 0 len

/-- Which server a socket belongs to: /repo/src/lib/log.c:82 or /repo/src/nfqlb/cmdFlowLb.c:484. -/
inductive Role where
  | trace | flow
  deriving DecidableEq, Repr

/-- The kernel's side of `bind` and `connect` (/repo/src/lib/log.c:93, /repo/src/nfqlb/cmdFlowLb.c:497, /repo/src/nfqlb/remoteCmd.c:100): which addresses can not both be bound (without SO_REUSEADDR, which nobody sets), which listener a
client that connects to the first address reaches, and the address that is bound instead of one with port 0. -/
structure Net where
  clash : Adr → Adr → Bool
  reach : Adr → Adr → Bool
  pick : List Adr → Adr → Option Adr

/-- A TCP address with port 0 (`sin_port` and `sin6_port` are at offset 2); /repo/src/lib/iputils.c:496. -/
def portZero (a : Adr) : Bool := a.head? != some 1 && a[2]? == some 0 && a[3]? == some 0

/-- A listening socket of a process; /repo/src/lib/log.c:95, /repo/src/nfqlb/cmdFlowLb.c:499. -/
structure Listener where
  adr : Adr
  pid : Nat
  role : Role
  deriving DecidableEq, Repr

/-- The listening sockets, and the addresses of TCP connections that the server has closed before the client and that are still remembered (TIME_WAIT; the connections of /repo/src/nfqlb/cmdFlowLb.c:505-510). -/
structure Sys where
  bound : List Listener
  linger : List Adr

/-- Nothing is started; before /repo/src/nfqlb/cmdFlowLb.c:282. -/
def empty : Sys := ⟨[], []⟩

/-- The addresses that `bind` looks at, /repo/src/lib/log.c:93 and /repo/src/nfqlb/cmdFlowLb.c:497: also those of remembered connections, because SO_REUSEADDR is not set. -/
def Sys.inUse (s : Sys) : List Adr := s.bound.map (·.adr) ++ s.linger

/-- `bind`, /repo/src/lib/log.c:93 and /repo/src/nfqlb/cmdFlowLb.c:497; `none` if it fails. -/
def bind (net : Net) (s : Sys) (a : Adr) (pid : Nat) (role : Role) : Option Sys :=
  if portZero a then
    match net.pick s.inUse a with
    | none => none
    | some b => some { s with bound := ⟨b, pid, role⟩ :: s.bound }
  else if s.inUse.any (net.clash a) then none
  else some { s with bound := ⟨a, pid, role⟩ :: s.bound }

/-- From the text of the address to `listen`: /repo/src/lib/log.c:85-96, /repo/src/nfqlb/cmdFlowLb.c:492-500. `none`: `die`, which ends the process, not the host. -/
def listenAt (net : Net) (gai : Gai) (s : Sys) (text : Str) (pid : Nat) (role : Role) : Res (Option Sys) :=
  match address gai text with
  | .ok a => .ok (bind net s a pid role)
  | .die => .ok none
  | .ub => .ub
  | .hang => .hang

/-- What happens on the host: `nfqlb lb` or `nfqlb flowlb` is started (with the environment variable and the option for the trace server; /repo/src/nfqlb/cmdLb.c:165, /repo/src/nfqlb/cmdFlowLb.c:282 and :346); a process ends;
a client asks the flow server for a list and reads up to the end (/repo/src/nfqlb/cmdFlow.c:141-156); `nfqlb trace` connects (/repo/src/nfqlb/cmdTrace.c:75-84); the kernel forgets closed connections. -/
inductive Ev where
  | lb (pid : Nat) (trace : Option Str)
  | flowlb (pid : Nat) (env : Option Str) (trace : Option Str)
  | stop (pid : Nat)
  | list (env : Option Str)
  | trace (opt : Option Str)
  | forget
  deriving DecidableEq, Repr

/-- What comes out of it: a process runs, or has ended (`die`), a client is served by a process, or has ended (`die`); /repo/src/lib/log.c:89 and :94, /repo/src/nfqlb/cmdFlowLb.c:493 and :498, /repo/src/nfqlb/remoteCmd.c:96 and :101. -/
inductive Out where
  | running | ended | served (pid : Nat) (role : Role) | refused | quiet
  deriving DecidableEq, Repr

/-- The start of the trace server, /repo/src/lib/log.c:142-146 and :82-96. -/
def startTrace (net : Net) (gai : Gai) (s : Sys) (pid : Nat) (opt : Option Str) : Res (Option Sys) :=
  listenAt net gai s (traceText opt) pid .trace

/-- `connect`, /repo/src/nfqlb/remoteCmd.c:95-101 and /repo/src/nfqlb/cmdTrace.c:77-84: the listener that is reached; `none` for `die`. -/
def connect (net : Net) (gai : Gai) (s : Sys) (text : Str) : Res (Option Listener) :=
  match address gai text with
  | .ok a => .ok (s.bound.find? (fun l => net.reach a l.adr))
  | .die => .ok none
  | .ub => .ub
  | .hang => .hang

/-- One event. The sockets of a process that ends are closed. A client that reads up to the end sees that the server has closed the connection (/repo/src/nfqlb/cmdFlowLb.c:505-510), which the kernel of the server remembers if it is a
TCP connection. -/
def step (net : Net) (gai : Gai) (s : Sys) : Ev → Res (Sys × Out)
  | .lb pid tr => do
    match ← startTrace net gai s pid tr with
    | none => return (s, .ended)
    | some s1 => return (s1, .running)
  | .flowlb pid env tr => do
    match ← startTrace net gai s pid tr with
    | none => return (s, .ended)
    | some s1 =>
      match ← listenAt net gai s1 (flowText env) pid .flow with
      | none => return (s, .ended)
      | some s2 => return (s2, .running)
  | .stop pid => .ok ({ s with bound := s.bound.filter (fun l => l.pid != pid) }, .quiet)
  | .list env => do
    match ← connect net gai s (flowText env) with
    | none => return (s, .refused)
    | some l => return (if l.adr.head? = some 1 then s else { s with linger := l.adr :: s.linger }, .served l.pid l.role)
  | .trace opt => do
    match ← connect net gai s (traceText opt) with
    | none => return (s, .refused)
    | some l => return (s, .served l.pid l.role)
  | .forget => .ok ({ s with linger := [] }, .quiet)

/-- A history: the events with what came out of them. /repo/src/nfqlb/cmdFlowLb.c:239-372, /repo/src/lib/log.c:82-146. -/
def run (net : Net) (gai : Gai) : Sys → List Ev → Res (Sys × List (Ev × Out))
  | s, [] => .ok (s, [])
  | s, e :: es => do
    let (s1, o) ← step net gai s e
    let (s2, h) ← run net gai s1 es
    return (s2, (e, o) :: h)

end Nfqlb.Sock
