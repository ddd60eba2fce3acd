import Verif.Model.Server

/-! Model of what the clients get: the messages of `flowDefine` (/repo/src/lib/flow.c:207-312) and `matchParse` (/repo/src/lib/match.c:68-104), what the server writes (/repo/src/nfqlb/cmdFlowLb.c:469-474 and :527-565), and what
the clients do with it (/repo/src/nfqlb/cmdFlow.c:91-98, :121-128, :150-156, :174-180; /repo/src/nfqlb/cmdTrace.c:177-184, :203-210, :231-237, :255-261). -/

namespace Nfqlb.Client

open Nfqlb Nfqlb.Remote Nfqlb.Server

/-! ### The messages -/

/-- The string that `matchParse` returns, /repo/src/lib/match.c:68-104; `none` for NULL (the item is accepted). -/
def matchErr (str : List Char) : Res (Option (List Char)) :=
  if str.length > 64 then .ok (some "String too long".toList)
  else if Regex.matchesRe Match.regex str = false then .ok (some "Doesn't match regexp".toList)
  else match Match.protoOf str with
    | none => .ok (some "Unknown protocol".toList)
    | some proto => do
      let cp ← Match.after '[' str
      let cp' ← Match.after ':' (CText.strtol0 cp).2
      let nbytes := (CText.strtol0 cp').1
      if nbytes ≠ 1 ∧ nbytes ≠ 2 ∧ nbytes ≠ 4 then .ok (some "Nbytes invalid. Only 1,2,4 is allowed".toList)
      else if u32 ((CText.strtol0 cp).1 + nbytes) > Match.headerlength proto then .ok (some "Out of bounds".toList)
      else do
        let _ ← Match.after '=' (match CText.strchr '&' (CText.strtol0 cp').2 with
          | some r => (CText.strtol0 (r.drop 1)).2
          | none => (CText.strtol0 cp').2)
        return none

/-- The loop with `matchAdd` in `flowDefine`: the message if an item is refused. `snprintf` cuts it to the 127 characters that fit in `err`. /repo/src/lib/flow.c:220-221 and :263-271. -/
def matchErrs : List (List Char) → Res (Option (List Char))
  | [] => .ok none
  | s :: r => do
    match ← matchErr s with
    | some m => return some (("Match [".toList ++ s ++ "] ".toList ++ m).take 127)
    | none => matchErrs r

/-- A check, the message if it fails, and the rest. `BAILOUT`, /repo/src/lib/flow.c:220. -/
def check (r : Res Bool) (msg : String) (k : Res (Option (List Char))) : Res (Option (List Char)) := do
  let ok ← r
  if ok then k else .ok (some msg.toList)

/-- /repo/src/lib/flow.c:234-237 -/
def protocolsOk (o : Option (List (List Char))) : Res Bool :=
  match o with
  | none => .ok true
  | some l => .ok (Flow.parseProtocol l).isSome

/-- /repo/src/lib/flow.c:239-243 and :245-249 -/
def portsOk (rq : (Nat → Nat) → List Nat → List Nat) (o : Option (List Char)) : Res Bool :=
  match o with
  | none => .ok true
  | some s => do
    let (_, ok) ← Flow.definePorts rq s
    return ok

/-- /repo/src/lib/flow.c:252-256 and :257-261 -/
def cidrsOk (o : Option (List (List Char))) : Res Bool :=
  match o with
  | none => .ok true
  | some l => do
    let cs ← Flow.parseCidrs l
    return cs.isSome

/-- The string that `flowDefine` returns, /repo/src/lib/flow.c:207-312; `none` for NULL (the flow is accepted). The message for the source ports is that for the destination ports (:248). -/
def flowDefineErr (rq : (Nat → Nat) → List Nat → List Nat) (a : Flow.Args) : Res (Option (List Char)) :=
  match a.name with
  | none => .ok (some "No name".toList)
  | some name =>
    if name.length ≥ 1024 then .ok (some "Name too long".toList)
    else
      check (protocolsOk a.protocols) "Invalid protocols" <|
      check (portsOk rq a.dports) "Invalid dports" <|
      check (portsOk rq a.sports) "Invalid dports" <|
      check (cidrsOk a.dsts) "Invalid dsts" <|
      check (cidrsOk a.srcs) "Invalid srcs" <|
      matchErrs (a.mtch.getD [])

/-- The message of the `flowDefine` that fails in `cmd_set`, /repo/src/nfqlb/cmdFlowLb.c:601-639: that of the flow for the encapsulating UDP packets comes first. -/
def setErr (rq : (Nat → Nat) → List Nat → List Nat) (c : FlowLb.Cmd) : Res (Option (List Char)) :=
  if c.udpencap = 0 then flowDefineErr rq (FlowLb.flowArgs c 0)
  else do
    let name ← FlowLb.udpName c.name
    match ← flowDefineErr rq (FlowLb.udpArgs c name) with
    | some m => return some m
    | none => flowDefineErr rq (FlowLb.flowArgs c 0)

/-! ### What is written -/

/-- `writeReply`: the string with the NUL, /repo/src/nfqlb/cmdFlowLb.c:469-474. -/
def writeReply (msg : List Char) : List Char := msg ++ ['\x00']

/-- The messages of `cmd_set` and `cmd_delete` other than those of `flowDefine`, /repo/src/nfqlb/cmdFlowLb.c:581, :587, :597, :608, :637, :658 and :660. -/
def replyText : FlowLb.Reply → Option (List Char)
  | .ok => some "OK".toList
  | .alter => some "FAIL: Alter udpencap not allowed".toList
  | .newLb => some "FAIL: Couldn't create new load-balancer".toList
  | .lb => some "FAIL: Couldn't create load-balancer".toList
  | .sctp => some "FAIL: only sctp for updencap".toList
  | .define => none
  | .name => some "FAIL: no name".toList

/-- The bytes that are written to the connection of a request, /repo/src/nfqlb/cmdFlowLb.c:527-565, :637-639, :664-695. The message that is missing cannot be (see `define_text` in the proofs): it would be NULL in `writeReply`. -/
def wire (rq : (Nat → Nat) → List Nat → List Nat) (c : FlowCmd) : Out → Res (List Char)
  | .nothing => .ok []
  | .reply r =>
    match replyText r with
    | some t => .ok (writeReply t)
    | none => do
      match ← setErr rq c.toCmd with
      | some m => return writeReply m
      | none => .ub
  | .noAction => .ok (writeReply "FAIL: no action".toList)
  | .unknown => .ok (writeReply "FAIL: action unknown".toList)
  | .refused => do
    match ← flowDefineErr rq (traceArgs c 0) with
    | some m => return writeReply m
    | none => .ub
  | .ok => .ok (writeReply "OK".toList)
  | .noName => .ok (writeReply "FAIL: no name".toList)
  | .text t => .ok t

/-- One connection: the server afterwards, and the bytes written to it. /repo/src/nfqlb/cmdFlowLb.c:504-566. -/
def serveBytes (rq : (Nat → Nat) → List Nat → List Nat) (fq : List Flow.Flow → List Flow.Flow) (s : Srv) (k : Conn) : Res (Srv × List Char) := do
  let (s, o) ← serve rq fq s k
  let t ← wire rq s.cmd o
  return (s, t)

/-! ### The clients -/

/-- `read(fd, buf, size)` when `s` is what the other end still sends before it closes: the kernel gives at least one byte if there is one, and decides how many (`n`). /repo/src/nfqlb/cmdFlow.c:92. -/
def readFd (size n : Nat) (s : List Char) : List Char := s.take (min (max n 1) size)

/-- What a client prints, and its exit code. /repo/src/nfqlb/cmdFlow.c:91-99. -/
structure Result where
  out : List Char
  code : Int
  deriving Repr, DecidableEq

/-- `flow-set`, `flow-delete`, `trace-flow-set` and `trace-flow-delete` after the request: one `read` into a buffer of 64 bytes that is not initialised, and `printf("%s\n", buf)`: undefined if no NUL was read.
/repo/src/nfqlb/cmdFlow.c:91-99 and :121-128; /repo/src/nfqlb/cmdTrace.c:177-185 and :203-210. -/
def shortClient (n : Nat) (s : List Char) : Res Result :=
  let buf := readFd 64 n s
  if buf = [] then .ok ⟨[], -1⟩
  else if '\x00' ∈ buf then .ok ⟨buf.takeWhile (fun c => c != '\x00') ++ ['\n'], if buf.take 2 = "OK".toList then 0 else -1⟩
  else .ub

/-- The loop of the clients that list: each turn copies what `read` gives (up to 1024 bytes) to the standard output; `ns` are the numbers that the kernel decides on. Here `write` writes everything; its result is not checked.
/repo/src/nfqlb/cmdFlow.c:152-155 and :176-179; /repo/src/nfqlb/cmdTrace.c:233-236 and :257-260. -/
def copyLoop (ns : Nat → Nat) (i : Nat) (s : List Char) : List Char :=
  if h : s = [] then []
  else
    have : (s.drop (readFd 1024 (ns i) s).length).length < s.length := by
      have : 0 < s.length := List.length_pos_iff.2 h
      unfold readFd
      simp only [List.length_drop, List.length_take]
      omega
    readFd 1024 (ns i) s ++ copyLoop ns (i + 1) (s.drop (readFd 1024 (ns i) s).length)
termination_by s.length
decreasing_by exact this

/-- `flow-list`, `flow-list-names`, `trace-flow-list` and `trace-flow-list-names` after the request, /repo/src/nfqlb/cmdFlow.c:150-156 and :174-180; /repo/src/nfqlb/cmdTrace.c:231-237 and :255-261. -/
def listClient (ns : Nat → Nat) (s : List Char) : Result := ⟨copyLoop ns 0 s, 0⟩

end Nfqlb.Client
