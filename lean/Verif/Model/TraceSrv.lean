import Verif.Model.Basic

/-!
The trace server of `nfqlb flowlb`: `tracef` and `traceServerThread` of /repo/src/lib/log.c, and what trace clients (`cmdTrace`, /repo/src/nfqlb/cmdTrace.c:72-94) do with it. Threads are interleaved: an event is one step of
one of them. Simplified: the address is a unix socket, so that writing to a connection whose peer has gone raises SIGPIPE at once; `fdopen` and `accept` do not fail; every client has a number of its own; clients send nothing; a line
is written at once (line buffering, /repo/src/lib/log.c:113).
-/

set_option autoImplicit false

namespace Nfqlb.TraceSrv

/-- `tracefile`, /repo/src/lib/log.c:21: NULL, `stderr` (:78), or the connection of client `c` with descriptor `cd` (:106). -/
inductive File where
  | null
  | stderr
  | conn (c : Nat) (cd : Nat)
deriving DecidableEq

/-- To whom a descriptor of the process belongs: to the trace server, or to something else, for instance a connection of the control thread. /repo/src/lib/log.c:82-140. -/
inductive Owner where
  | trace
  | other (id : Nat)
deriving DecidableEq

/-- Where the trace server is in its loop, /repo/src/lib/log.c:97-138: about to accept (:99), to announce (:117), to ignore SIGPIPE (:120), to read (:122), to write (:128), to clear the mask (:129), to close the file (:132), to close
the descriptor (:134), to set SIGPIPE to its default (:136). -/
inductive Pc where
  | accept | announce | ignore | reading | test | clear | fclose | close | dfl
deriving DecidableEq

/-- `tracemask` in shared memory, `tracefile`, place, `cd` (:99), disposition of SIGPIPE, pending connections (:95), clients that were ever connected, those that have gone, descriptors, and what clients got. /repo/src/lib/log.c:82-140. -/
structure St where
  mask : Nat
  file : File
  pc : Pc
  cd : Nat
  ign : Bool
  queue : List Nat
  used : List Nat
  gone : List Nat
  fds : Nat → Option Owner
  got : List (Nat × List Char)

/-- The start, /repo/src/lib/log.c:18 and :76-79, with the descriptors 0, 1 and 2 open. -/
def start : St := ⟨0, .stderr, .accept, 0, false, [], [], [], fun fd => if fd < 3 then some (.other fd) else none, []⟩

/-- `tracef`, /repo/src/lib/log.c:27-40. SIGPIPE terminates the process unless it is ignored. -/
def tracef (s : St) (text : List Char) : Res St :=
  match s.file with
  | .null => .ok s
  | .stderr => .ok s
  | .conn c _ => if c ∈ s.gone then (if s.ign then .ok s else .die) else .ok { s with got := s.got ++ [(c, text)] }

/-- A descriptor is opened or closed; `none` closes. /repo/src/lib/log.c:99, :110, :132 and :134. -/
def setFd (s : St) (fd : Nat) (o : Option Owner) : St := { s with fds := fun x => if x = fd then o else s.fds x }

/-- "%08x", the characters (the mask is less than 2^32). /repo/src/lib/log.c:116-117. -/
def hex8 (n : Nat) : List Char := (List.range 8).map (fun i => let d := n / 16 ^ (7 - i) % 16; if d < 10 then Char.ofNat (48 + d) else Char.ofNat (87 + d))

/-- The announcement, /repo/src/lib/log.c:117. -/
def active (mask : Nat) : List Char := "Trace active, mask=0x".toList ++ hex8 mask ++ ['\n']

/-- One step of the trace server, /repo/src/lib/log.c:97-138; `fd` is the descriptor that the kernel picks if there is something to accept. Where the call blocks the state stays. -/
def serve (s : St) (fd : Nat) : Res St :=
  match s.pc with
  | .accept =>
    match s.queue, s.fds fd with
    | c :: q, none => .ok { setFd s fd (some .trace) with file := .conn c fd, pc := .announce, cd := fd, queue := q }
    | _, _ => .ok s
  | .announce => do let s ← tracef s (active s.mask); return { s with pc := .ignore }
  | .ignore => .ok { s with ign := true, pc := .reading }
  | .reading =>
    match s.file with
    | .conn c _ => .ok (if c ∈ s.gone then { s with pc := .test } else s)
    | _ => .ub
  | .test => do let s ← tracef s "SIGPIPE TEST\n".toList; return { s with pc := .clear }
  | .clear => .ok { s with mask := 0, pc := .fclose }
  | .fclose =>
    match s.file with
    | .conn _ cd => .ok { setFd s cd none with file := .null, pc := .close }
    | _ => .ub
  | .close => .ok { setFd s s.cd none with pc := .dfl }
  | .dfl => .ok { s with ign := false, pc := .accept }

/-- A step of some thread or process.
* `setMask m`: a client sets the mask, /repo/src/nfqlb/cmdTrace.c:73.
* `connect c`: client `c` connects, :83.
* `leave c`: client `c` ends.
* `write bit text`: a thread traces something, `trace(m, text)`, /repo/src/lib/log.h:43.
* `late text`: a thread calls `tracef` after it tested the mask some time before.
* `openFd fd id`: another thread opens something and gets `fd`, if that is free; `closeFd`: it closes that.
* `serve fd`: the trace server. -/
inductive Ev where
  | setMask (m : Nat)
  | connect (c : Nat)
  | leave (c : Nat)
  | write (bit : Nat) (text : List Char)
  | late (text : List Char)
  | openFd (fd id : Nat)
  | closeFd (fd id : Nat)
  | serve (fd : Nat)

/-- One step, see `Ev`. /repo/src/lib/log.c:27-40 and /repo/src/lib/log.c:82-140. -/
def step (s : St) : Ev → Res St
  | .setMask m => .ok { s with mask := m }
  | .connect c => .ok (if c ∈ s.used then s else { s with queue := s.queue ++ [c], used := c :: s.used })
  | .leave c => .ok (if c ∈ s.used then { s with gone := c :: s.gone } else s)
  | .write bit text => if s.mask.testBit bit then tracef s text else .ok s
  | .late text => tracef s text
  | .openFd fd id => .ok (if s.fds fd = none then setFd s fd (some (.other id)) else s)
  | .closeFd fd id => .ok (if s.fds fd = some (.other id) then setFd s fd none else s)
  | .serve fd => serve s fd

/-- A sequence of steps. /repo/src/lib/log.c:27-40 and /repo/src/lib/log.c:82-140. -/
def run (s : St) : List Ev → Res St
  | [] => .ok s
  | e :: es => do let s ← step s e; run s es

end Nfqlb.TraceSrv
