import Verif.Model.Argv
import Verif.Model.FlowLb

/-! Model of the control requests of `nfqlb flowlb`: the reader, /repo/src/nfqlb/remoteCmd.c:12-85; what the clients write, /repo/src/nfqlb/cmdFlow.c; the server, /repo/src/nfqlb/cmdFlowLb.c:484-695.
A stream is the list of the characters (bytes) that arrive before the end of file; strings are lists of characters without the terminating NUL. Memory is counted in blocks. -/

namespace Nfqlb.Remote

open Nfqlb

/-- `atoi` (/repo/src/nfqlb/remoteCmd.c:43 and :63): `(int)strtol(s, NULL, 10)` in glibc, with a 64-bit `long`: white space, a sign, decimal digits; values that do not fit are replaced by the largest or
least `long`, then the low 32 bits are taken. -/
def atoi (s : List Char) : Int :=
  let s := s.dropWhile CText.isSpace
  let neg := s.head? == some '-'
  let s := if s.head? == some '-' || s.head? == some '+' then s.drop 1 else s
  let v := Nat.ofDigitChars 10 (s.takeWhile Char.isDigit) 0
  let v : Int := if neg then - (min v 9223372036854775808 : Nat) else (min v 9223372036854775807 : Nat)
  let v := v % 4294967296
  if v < 2147483648 then v else v - 4294967296

/-- The characters that `fgets` takes: up to and with a newline, at most `n`. And the rest. /repo/src/nfqlb/remoteCmd.c:17. -/
def fgetsAux : Nat → List Char → List Char × List Char
  | 0, s => ([], s)
  | _ + 1, [] => ([], [])
  | n + 1, c :: s => if c = '\n' then ([c], s) else (c :: (fgetsAux n s).1, (fgetsAux n s).2)

/-- `fgets(buf, size, in)` (/repo/src/nfqlb/remoteCmd.c:17): `none` for NULL, at the end of the stream. -/
def fgets (size : Nat) (s : List Char) : Option (List Char × List Char) := if s = [] then none else some (fgetsAux (size - 1) s)

/-- The string in `buf` without the newline, /repo/src/nfqlb/remoteCmd.c:22. A string ends at the first NUL. -/
def trimLine (raw : List Char) : List Char := (raw.takeWhile (fun c => c != '\x00')).takeWhile (fun c => c != '\n')

/-- `struct FlowCmd`, /repo/src/nfqlb/nfqlb.h:56-68. -/
structure FlowCmd extends FlowLb.Cmd where
  action : Option (List Char)
  deriving Repr, DecidableEq

/-- `memset(cmd, 0, sizeof(*cmd))`, /repo/src/nfqlb/remoteCmd.c:15 and :84. -/
def FlowCmd.zero : FlowCmd where
  name := none
  target := none
  priority := 0
  protocols := none
  dports := none
  sports := none
  dsts := none
  srcs := none
  mtch := none
  udpencap := 0
  action := none

/-- Blocks of memory: how many are allocated, and the most that were at any time. /repo/src/nfqlb/remoteCmd.c:12-85. -/
structure Mem where
  live : Nat
  peak : Nat
  deriving Repr, DecidableEq

/-- `malloc` or `strdup`; they do not fail here. E.g. /repo/src/nfqlb/remoteCmd.c:35. -/
def Mem.alloc (m : Mem) : Mem := ⟨m.live + 1, max m.peak (m.live + 1)⟩

/-- `free` of a pointer: NULL is permitted. /repo/src/nfqlb/remoteCmd.c:75-80. -/
def Mem.free {α : Type} (m : Mem) (p : Option α) : Mem :=
  match p with
  | none => m
  | some _ => { m with live := m.live - 1 }

/-- `freeFlowCmd`, /repo/src/nfqlb/remoteCmd.c:73-85. -/
def freeFlowCmd (c : FlowCmd) (m : Mem) : FlowCmd × Mem :=
  let m := m.free c.action
  let m := m.free c.name
  let m := m.free c.target
  let m := m.free c.protocols
  let m := m.free c.dports
  let m := m.free c.sports
  let m := m.free c.dsts
  let m := m.free c.srcs
  let m := m.free c.mtch
  (FlowCmd.zero, m)

/-- A field that gets `strdup(arg)` unless it is set, as in /repo/src/nfqlb/remoteCmd.c:34-35. -/
def dupField (field : Option (List Char)) (arg : List Char) (m : Mem) : Option (List Char) × Mem :=
  match field with
  | some x => (some x, m)
  | none => (some arg, m.alloc)

/-- A field that gets `mkargv(arg, delim)` unless it is set, as in /repo/src/nfqlb/remoteCmd.c:45-46. `mkargv` has a copy of the text for a while, /repo/src/lib/argv.c:18-26. -/
def listField (field : Option (List (List Char))) (arg delim : List Char) (m : Mem) : Res (Option (List (List Char)) × Mem) :=
  match field with
  | some x => .ok (some x, m)
  | none => do
    match ← Argv.mkargv arg delim with
    | none => return (none, if arg = [] then m else m.alloc.free (some ()))
    | some x => return (some x, (m.alloc.free (some ())).alloc)

/-- A line `name:arg`, /repo/src/nfqlb/remoteCmd.c:33-68. -/
def setField (c : FlowCmd) (m : Mem) (name arg : List Char) : Res (FlowCmd × Mem) :=
  if name = "action".toList then
    .ok ({ c with action := (dupField c.action arg m).1 }, (dupField c.action arg m).2)
  else if name = "name".toList then
    .ok ({ c with name := (dupField c.name arg m).1 }, (dupField c.name arg m).2)
  else if name = "target".toList then
    .ok ({ c with target := (dupField c.target arg m).1 }, (dupField c.target arg m).2)
  else if name = "priority".toList then
    .ok ({ c with priority := atoi arg }, m)
  else if name = "protocols".toList then do
    let r ← listField c.protocols arg ", ".toList m
    return ({ c with protocols := r.1 }, r.2)
  else if name = "dports".toList then
    .ok ({ c with dports := (dupField c.dports arg m).1 }, (dupField c.dports arg m).2)
  else if name = "sports".toList then
    .ok ({ c with sports := (dupField c.sports arg m).1 }, (dupField c.sports arg m).2)
  else if name = "dsts".toList then do
    let r ← listField c.dsts arg ", ".toList m
    return ({ c with dsts := r.1 }, r.2)
  else if name = "srcs".toList then do
    let r ← listField c.srcs arg ", ".toList m
    return ({ c with srcs := r.1 }, r.2)
  else if name = "match".toList then do
    let r ← listField c.mtch arg ",".toList m
    return ({ c with mtch := r.1 }, r.2)
  else if name = "udpencap".toList then
    .ok ({ c with udpencap := (atoi arg % 65536).toNat }, m)
  else .ok (c, m)

/-- What a line does: the end, refused, or more lines. /repo/src/nfqlb/remoteCmd.c:12-71. -/
inductive Line where
  | eoc
  | bad
  | next (c : FlowCmd) (m : Mem)
  deriving Repr, DecidableEq

/-- One line, /repo/src/nfqlb/remoteCmd.c:24-68. -/
def doLine (c : FlowCmd) (m : Mem) (buf : List Char) : Res Line :=
  if buf.take 4 = "eoc:".toList then .ok .eoc
  else match CText.strchr ':' buf with
    | none => .ok .bad
    | some r => do
      let x ← setField c m (buf.takeWhile (fun x => x != ':')) (r.drop 1)
      return .next x.1 x.2

/-- The return value, `*cmd`, the memory, and what was not read. /repo/src/nfqlb/remoteCmd.c:12-71. -/
structure Read where
  rc : Int
  cmd : FlowCmd
  mem : Mem
  rest : List Char
  deriving Repr, DecidableEq

theorem fgetsAux_rest : ∀ (n : Nat) (s : List Char), (fgetsAux n s).2.length ≤ s.length
  | 0, s => Nat.le_refl _
  | _ + 1, [] => Nat.le_refl _
  | n + 1, c :: s => by
    unfold fgetsAux
    split
    · simp
    · have := fgetsAux_rest n s
      simp only [List.length_cons]
      omega

theorem fgets_lt {size : Nat} {s raw rest : List Char} (h0 : 1 < size) (h : fgets size s = some (raw, rest)) : rest.length < s.length := by
  unfold fgets at h
  split at h
  · cases h
  · rename_i hne
    obtain ⟨c, s, rfl⟩ := List.exists_cons_of_ne_nil hne
    obtain ⟨n, hn⟩ : ∃ n, size - 1 = n + 1 := ⟨size - 2, by omega⟩
    have e := (Option.some.inj h)
    rw [hn] at e
    unfold fgetsAux at e
    have := fgetsAux_rest n s
    split at e <;> cases e
    · simp
    · simp only [List.length_cons]; omega

/-- The loop of `readFlowCmd`, /repo/src/nfqlb/remoteCmd.c:16-70. The buffer has MAX_CMD_LINE bytes, /repo/src/nfqlb/nfqlb.h:44. -/
def readLoop (s : List Char) (c : FlowCmd) (m : Mem) : Res Read :=
  match _h : fgets 1024 s with
  | none => .ok ⟨-1, (freeFlowCmd c m).1, (freeFlowCmd c m).2, s⟩
  | some (raw, rest) =>
    match doLine c m (trimLine raw) with
    | .ok .eoc => .ok ⟨0, c, m, rest⟩
    | .ok .bad => .ok ⟨-1, (freeFlowCmd c m).1, (freeFlowCmd c m).2, rest⟩
    | .ok (.next c m) => readLoop rest c m
    | .die => .die
    | .ub => .ub
    | .hang => .hang
termination_by s.length
decreasing_by exact fgets_lt (by decide) _h

/-- `readFlowCmd`, /repo/src/nfqlb/remoteCmd.c:12-71. -/
def readFlowCmd (s : List Char) (m : Mem) : Res Read := readLoop s FlowCmd.zero m

/-! ### The clients -/

/-- A line that `fprintf(out, "name:%s\n", arg)` writes, /repo/src/nfqlb/cmdFlow.c:70. -/
def outLine (name : String) (arg : List Char) : List Char := name.toList ++ ':' :: arg ++ ['\n']

/-- The same if `arg` is not NULL, /repo/src/nfqlb/cmdFlow.c:72-73. -/
def outOpt (name : String) (arg : Option (List Char)) : List Char :=
  match arg with
  | none => []
  | some a => outLine name a

/-- The options of `flow-set`, /repo/src/nfqlb/cmdFlow.c:14-23; `name` and `target` are required, :29-30. -/
structure SetOpts where
  name : List Char
  target : List Char
  prio : Option (List Char)
  protocols : Option (List Char)
  dsts : Option (List Char)
  srcs : Option (List Char)
  dports : Option (List Char)
  sports : Option (List Char)
  mtch : Option (List Char)
  udpencap : Option (List Char)
  deriving Repr, DecidableEq

/-- `arg != NULL && strlen(arg) > MAX_ARG_LEN`, /repo/src/nfqlb/cmdFlow.c:46 (and :48, :50, :52, :54, :56); /repo/src/nfqlb/nfqlb.h:45. -/
def tooLong (arg : Option (List Char)) : Bool :=
  match arg with
  | none => false
  | some a => decide (a.length > 1000)

/-- `strcasestr(s, sub) != NULL`, /repo/src/nfqlb/cmdFlow.c:60. -/
def casestr (sub : List Char) : List Char → Bool
  | [] => sub.isEmpty
  | c :: s => (sub.map CText.lower).isPrefixOf ((c :: s).map CText.lower) || casestr sub s

/-- The tests in `cmdFlowSet`, /repo/src/nfqlb/cmdFlow.c:44-63: true if they permit the request. -/
def setChecks (o : SetOpts) : Bool :=
  !decide (o.target.length > 255) && !tooLong o.protocols && !tooLong o.dsts && !tooLong o.srcs && !tooLong o.dports && !tooLong o.sports && !tooLong o.mtch &&
  (match o.udpencap, o.protocols with
    | none, _ => true
    | some _, none => false
    | some _, some p => casestr "sctp".toList p) &&
  !((o.dports.isSome || o.sports.isSome) && o.protocols.isNone)

/-- What `cmdFlowSet` writes, /repo/src/nfqlb/cmdFlow.c:69-88. -/
def setText (o : SetOpts) : List Char :=
  outLine "action" "set".toList ++ outLine "name" o.name ++ outLine "target" o.target ++ outOpt "priority" o.prio ++ outOpt "protocols" o.protocols ++ outOpt "dsts" o.dsts ++
  outOpt "srcs" o.srcs ++ outOpt "dports" o.dports ++ outOpt "sports" o.sports ++ outOpt "match" o.mtch ++ outOpt "udpencap" o.udpencap ++ outLine "eoc" []

/-- `cmdFlowSet` as far as the request, /repo/src/nfqlb/cmdFlow.c:12-89. -/
def cmdFlowSet (o : SetOpts) : Res (List Char) := if setChecks o then .ok (setText o) else .die

/-- What `cmdFlowDelete` writes, /repo/src/nfqlb/cmdFlow.c:116-118. -/
def deleteText (name : List Char) : List Char := outLine "action" "delete".toList ++ outLine "name" name ++ outLine "eoc" []

/-- What `cmdFlowList` writes, /repo/src/nfqlb/cmdFlow.c:145-148. -/
def listText (name : Option (List Char)) : List Char := outLine "action" "list".toList ++ outOpt "name" name ++ outLine "eoc" []

/-- What `cmdFlowListNames` writes, /repo/src/nfqlb/cmdFlow.c:171-172. -/
def listNamesText : List Char := outLine "action" "list-names".toList ++ outLine "eoc" []

end Nfqlb.Remote
