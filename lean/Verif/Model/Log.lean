import Verif.Model.TraceSrv
import Verif.Model.CText

/-!
The log: `logp` (/repo/src/lib/log.c:42-61) with the macros `warning`, `notice`, `info` and `debug` (/repo/src/lib/log.h:33-40), together with the trace server of `Verif.Model.TraceSrv`, which logs too. Threads are interleaved: a
thread that logs writes to `logfile` and tests `tracefile` and the mask in one step, and writes to `tracefile` in a later one. Simplified: `stderr` takes everything; the messages of the trace server itself are written to both files in one
step, and that about an accepted connection (:100) in one step with `accept` and `fdopen`; the calls that log errors (:102, :109) do not fail. -/

set_option autoImplicit false

namespace Nfqlb.Log

open Nfqlb.TraceSrv

/-- By which way something came to `stderr`: a message of a thread (/repo/src/lib/log.c:46), a message of the trace server (the same line), or as `tracefile`, which is `stderr` from the start on (:33, :58 and :78). -/
inductive Tag where
  | msg
  | own
  | traced
deriving DecidableEq

/-- The trace server and the mask, `level` (/repo/src/lib/log.h:12), what was written to `stderr`, the messages that threads are about to write to `tracefile` (/repo/src/lib/log.c:52-59), and whether the trace server has logged
the message of the place where it is (:98 and :116). -/
structure LogSt where
  srv : St
  level : Int
  err : List (Tag × List Char)
  pend : List (List Char)
  said : Bool

/-- The start with the log level of the shared memory, after the first message, /repo/src/lib/log.c:84. -/
def start (level : Int) : LogSt := ⟨TraceSrv.start, level, if level ≥ 6 then [(.own, "Started Trace\n".toList)] else [], [], false⟩

/-- Writing to `tracefile` with the lock, /repo/src/lib/log.c:27-40 and :53-59. -/
def toTrace (s : LogSt) (text : List Char) : Res LogSt :=
  match s.srv.file with
  | .stderr => .ok { s with err := s.err ++ [(.traced, text)] }
  | _ => do let t ← tracef s.srv text; return { s with srv := t }

/-- Whether `logp` goes on to the trace, /repo/src/lib/log.c:49; `TRACE_LOG` is the lowest bit, /repo/src/lib/log.h:42. -/
def active0 (s : LogSt) : Bool := decide (s.srv.file ≠ .null) && s.srv.mask.testBit 0

/-- A thread logs something, /repo/src/lib/log.h:33-40 and /repo/src/lib/log.c:42-50. -/
def say (s : LogSt) (severity : Int) (text : List Char) : LogSt :=
  if s.level ≥ severity then
    let s := { s with err := s.err ++ [(.msg, text)] }
    if active0 s then { s with pend := s.pend ++ [text] } else s
  else s

/-- The trace server logs something, /repo/src/lib/log.h:33-40 and /repo/src/lib/log.c:42-61. -/
def own (s : LogSt) (severity : Int) (text : List Char) : Res LogSt :=
  if s.level ≥ severity then
    let s := { s with err := s.err ++ [(.own, text)] }
    if active0 s then toTrace s text else .ok s
  else .ok s

/-- The messages of the trace server, /repo/src/lib/log.c:100 and :116. -/
def accepted (fd : Nat) : List Char := "Trace; Accepted incoming connection. cd=".toList ++ CText.dec fd ++ ['\n']
/-- /repo/src/lib/log.c:116. -/
def activeMask (mask : Nat) : List Char := "Trace; active mask=0x".toList ++ hex8 mask ++ ['\n']

/-- A step of the trace server without its messages, /repo/src/lib/log.c:97-138. -/
def bare (s : LogSt) (fd : Nat) : Res LogSt := do
  let t ← TraceSrv.serve s.srv fd
  return { s with srv := t, said := false }

/-- One step of the trace server with its messages, /repo/src/lib/log.c:97-138: :98 before `accept`, :100 after it, :116 before the announcement, :137 at the end. -/
def serve (s : LogSt) (fd : Nat) : Res LogSt :=
  match s.srv.pc, s.said with
  | .accept, false => do let s ← own s 7 "Trace: accept\n".toList; return { s with said := true }
  | .accept, true =>
    match s.srv.queue, s.srv.fds fd with
    | _ :: _, none => do let s ← own s 6 (accepted fd); bare s fd
    | _, _ => .ok s
  | .announce, false => do let s ← own s 4 (activeMask s.srv.mask); return { s with said := true }
  | .dfl, _ => do let s ← bare s fd; own s 4 "Trace: closed\n".toList
  | _, _ => bare s fd

/-- A step of some thread or process: those of `TraceSrv.Ev` (with `serve` as above), `nfqlb loglevel n` (/repo/src/nfqlb/cmdTrace.c:108-110), a thread logs a message of a severity (4: warning, 5: notice, 6: info, 7: debug;
/repo/src/lib/log.h:33-36), and the `k`th thread that is about to write to `tracefile` does so. -/
inductive Ev where
  | base (e : TraceSrv.Ev)
  | setLevel (n : Int)
  | say (severity : Int) (text : List Char)
  | copy (k : Nat)

/-- One step, see `Ev`. /repo/src/lib/log.c:27-61 and :82-140. -/
def step (s : LogSt) : Ev → Res LogSt
  | .base (.write bit text) => if s.srv.mask.testBit bit then toTrace s text else .ok s
  | .base (.late text) => toTrace s text
  | .base (.serve fd) => serve s fd
  | .base e => do let t ← TraceSrv.step s.srv e; return { s with srv := t }
  | .setLevel n => .ok { s with level := n }
  | .say severity text => .ok (say s severity text)
  | .copy k =>
    match s.pend[k]? with
    | none => .ok s
    | some text => toTrace { s with pend := s.pend.eraseIdx k } text

/-- A sequence of steps. /repo/src/lib/log.c:27-61 and :82-140. -/
def run (s : LogSt) : List Ev → Res LogSt
  | [] => .ok s
  | e :: es => do let s ← step s e; run s es

end Nfqlb.Log
