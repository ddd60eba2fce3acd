import Verif.Model.Basic

/-! Model of the table of commands and of the options, /repo/src/lib/cmd.c, and the commands that the programs register. Functions are numbered; strings are lists of characters. -/

namespace Nfqlb.Cmd

open Nfqlb

/-- A string of C, without the terminating NUL; e.g. /repo/src/lib/cmd.c:18. -/
abbrev Str := List Char

/-- MAX_COMMANDS, /repo/src/lib/cmd.c:13-15. -/
def maxCommands : Nat := 20

/-- `struct Cmd cmd[MAX_COMMANDS + 1]`, /repo/src/lib/cmd.c:17-21: `none` for an entry of NULLs. -/
abbrev Table := List (Option (Str × Nat))

/-- The table at the start, /repo/src/lib/cmd.c:21. -/
def empty : Table := List.replicate (maxCommands + 1) none

/-- `while (c->name != NULL) c++`, /repo/src/lib/cmd.c:24-25: the index, `none` when `c` leaves the table. -/
def firstFree : Table → Option Nat
  | [] => none
  | none :: _ => some 0
  | some _ :: t => (firstFree t).map (· + 1)

/-- `addCmd`, /repo/src/lib/cmd.c:22-30. -/
def addCmd (t : Table) (name : Str) (fn : Nat) : Res Table :=
  match firstFree t with
  | none => .ub
  | some c => if c < maxCommands then .ok (t.set c (some (name, fn))) else .ok t

/-- The calls of `addCmd` before `main`, in order (/repo/src/README.md:22-31). -/
def addAll : Table → List (Str × Nat) → Res Table
  | t, [] => .ok t
  | t, r :: rs => do
    let t ← addCmd t r.1 r.2
    addAll t rs

/-- What `handleCmd` does: print the commands, call a function with arguments, or complain. /repo/src/lib/cmd.c:32-51. -/
inductive Outcome where
  | usage (names : List Str)
  | call (fn : Nat) (argv : List Str)
  | unknown (name : Str)
  deriving Repr, DecidableEq

/-- The loop over the names, /repo/src/lib/cmd.c:36-38. -/
def names : Table → Res (List Str)
  | [] => .ub
  | none :: _ => .ok []
  | some c :: t => do
    let ns ← names t
    return c.1 :: ns

/-- The search, /repo/src/lib/cmd.c:44-47. -/
def search (t : Table) (argv : List Str) (name : Str) : Res Outcome :=
  match t with
  | [] => .ub
  | none :: _ => .ok (.unknown name)
  | some c :: t => if name = c.1 then .ok (.call c.2 argv) else search t argv name

/-- `handleCmd`, /repo/src/lib/cmd.c:32-51. -/
def handleCmd (t : Table) (argv : List Str) : Res Outcome :=
  match argv with
  | _ :: name :: args =>
    if name = "-h".toList ∨ name = "--help".toList then do
      let ns ← names t
      return .usage ns
    else search t (name :: args) name
  | _ => do
    let ns ← names t
    return .usage ns

/-- The commands of `nfqlb`, by the files that register them: /repo/src/nfqlb/cmdConfig.c:142-144, /repo/src/nfqlb/cmdFlow.c:184-187, /repo/src/nfqlb/cmdFlowLb.c:371,
/repo/src/nfqlb/cmdFwmark.c:109, /repo/src/nfqlb/cmdLb.c:248, /repo/src/nfqlb/cmdShm.c:153-157, /repo/src/nfqlb/cmdTrace.c:264-269. All
objects are linked into the program (/repo/src/Makefile:33, :36 and :51). -/
def nfqlbCommands : List (List Str) := [
  ["activate".toList, "deactivate".toList, "version".toList],
  ["flow-set".toList, "flow-delete".toList, "flow-list".toList, "flow-list-names".toList],
  ["flowlb".toList],
  ["fwmark".toList],
  ["lb".toList],
  ["init".toList, "delete".toList, "show".toList, "stats".toList, "primebelow".toList],
  ["trace".toList, "loglevel".toList, "trace-flow-set".toList, "trace-flow-delete".toList, "trace-flow-list".toList, "trace-flow-list-names".toList]]

/-- The commands of `ipu`, /repo/src/ipu/ipu.c:343-347. -/
def ipuCommands : List Str := ["linklocal".toList, "makeip".toList, "contains".toList, "version".toList, "man".toList]

/-! ### Options -/

/-- `struct Option`, /repo/src/lib/cmd.h:29-35, without the help text. `arg`: whether there is a variable for the argument, and its value: `none` for NULL. -/
structure Opt where
  name : Str
  arg : Option (Option Str)
  required : Bool
  deriving Repr, DecidableEq

/-- `lo->has_arg`, /repo/src/lib/cmd.c:109-112. -/
def Opt.hasArg (o : Opt) : Bool :=
  match o.arg with
  | none => false
  | some none => true
  | some (some d) => d != "no".toList

/-- `required`, /repo/src/lib/cmd.c:96 and :114-115: bit `i` for option `i`. -/
def requiredMask : Nat → List Opt → Nat
  | _, [] => 0
  | i, o :: os => (if o.required then 1 <<< i else 0) ||| requiredMask (i + 1) os

/-- What a call of `getopt_long_only` reports, /repo/src/lib/cmd.c:120 and :132: an option with its argument, or `'?'` (63): unknown, ambiguous, without its argument, or with an argument it must not have. The end (-1)
is the end of the list. -/
inductive Got where
  | opt (i : Nat) (optarg : Option Str)
  | bad
  deriving Repr, DecidableEq

/-- The name that is printed for bit `i`, /repo/src/lib/cmd.c:62-69. -/
def nameOf : Nat → List Opt → Nat → Str
  | _, [], _ => "(unknown)".toList
  | k, o :: os, i => if k = i then o.name else nameOf (k + 1) os i

/-- The loop of `verifyRequiredOptions`, /repo/src/lib/cmd.c:59-72: the options that are printed. `1 << 31` is taken as 2^31, as GCC does. -/
def missingFrom (opts : List Opt) (required got : Nat) : Nat → Nat → List Str
  | _, 0 => []
  | i, fuel + 1 =>
    (if required &&& (1 <<< i) ≠ got &&& (1 <<< i) then [nameOf 0 opts i] else []) ++ missingFrom opts required got (i + 1) fuel

/-- `verifyRequiredOptions`, /repo/src/lib/cmd.c:53-74: the value, and the options that are printed. -/
def verifyRequiredOptions (opts : List Opt) (required got : Nat) : Int × List Str :=
  let got := got &&& required
  if required = got then (0, []) else (-1, missingFrom opts required got 0 32)

/-- What `parseOptions` gives: its value, whether the usage is printed, the options that are printed as missing, and the variables. /repo/src/lib/cmd.c:94-137. -/
structure Parsed where
  rc : Int
  usage : Bool
  missing : List Str
  vars : List Opt
  deriving Repr, DecidableEq

/-- The loop of `parseOptions`, /repo/src/lib/cmd.c:120-136. `optind`: where the options end. An index outside of the table is undefined. -/
def parseLoop (orig : List Opt) (required : Nat) (optind : Nat) : List Got → Nat → List Opt → Res Parsed
  | [], got, vars =>
    let v := verifyRequiredOptions orig required got
    if v.1 ≠ 0 then .ok ⟨-1, false, v.2, vars⟩ else .ok ⟨optind, false, [], vars⟩
  | .bad :: _, _, vars => .ok ⟨-1, false, [], vars⟩
  | .opt i optarg :: gs, got, vars =>
    if i ≥ 32 then .ok ⟨-1, false, [], vars⟩
    else
      match vars[i]? with
      | none => .ub
      | some o =>
        if o.name = "help".toList then .ok ⟨0, true, [], vars⟩
        else
          let vars := if o.arg.isSome then vars.set i { o with arg := some optarg } else vars
          parseLoop orig required optind gs (got ||| 1 <<< i) vars

/-- `parseOptions`, /repo/src/lib/cmd.c:94-137, given what `getopt_long_only` reports. -/
def parseOptions (opts : List Opt) (gots : List Got) (optind : Nat) : Res Parsed :=
  if opts.length ≥ 32 then .die
  else parseLoop opts (requiredMask 0 opts) optind gots 0 opts

/-- Whether an element is an option, for glibc's `getopt_long_only`: it begins with `-` and is more than that. Called in /repo/src/lib/cmd.c:120 and :132. -/
def isOption (s : Str) : Bool :=
  match s with
  | '-' :: _ :: _ => true
  | _ => false

/-- The options whose names begin with `name`. Part of `getopt_long_only`, /repo/src/lib/cmd.c:120 and :132. -/
def abbrevs (name : Str) : Nat → List Opt → List (Nat × Opt)
  | _, [] => []
  | k, o :: os => if name.isPrefixOf o.name then (k, o) :: abbrevs name (k + 1) os else abbrevs name (k + 1) os

/-- glibc's `process_long_option` with `long_only`: the first option with exactly that name, else the only one whose name begins so. Part of `getopt_long_only`, /repo/src/lib/cmd.c:120 and :132. -/
def findOpt (opts : List Opt) (name : Str) : Option (Nat × Opt) :=
  match (abbrevs name 0 opts).find? (fun p => p.2.name == name) with
  | some p => some p
  | none =>
    match abbrevs name 0 opts with
    | [p] => some p
    | _ => none

/-- Without its one or two dashes. Part of `getopt_long_only`, /repo/src/lib/cmd.c:120 and :132. -/
def undash (s : Str) : Str :=
  match s with
  | '-' :: '-' :: r => r
  | '-' :: r => r
  | s => s

/-- `getopt_long_only(argc, argv, "", long_options, …)`, called until it returns -1, on the elements after the program's name (/repo/src/lib/cmd.c:120-133); this is glibc's, with permutation, not code of /repo.
What it reports, and the elements that are not options. -/
def getopt (opts : List Opt) : List Str → List Got × List Str
  | [] => ([], [])
  | s :: ss =>
    if s = "--".toList then ([], ss)
    else if isOption s = false then
      let r := getopt opts ss
      (r.1, s :: r.2)
    else
      let body := undash s
      let name := body.takeWhile (· != '=')
      let value := (body.dropWhile (· != '=')).drop 1
      let hasValue := decide ('=' ∈ body)
      match findOpt opts name with
      | none =>
        let r := getopt opts ss
        (.bad :: r.1, r.2)
      | some (i, o) =>
        if hasValue then
          let r := getopt opts ss
          (if o.hasArg then (.opt i (some value) :: r.1, r.2) else (.bad :: r.1, r.2))
        else if o.hasArg then
          match ss with
          | [] => ([.bad], [])
          | v :: ss =>
            let r := getopt opts ss
            (.opt i (some v) :: r.1, r.2)
        else
          let r := getopt opts ss
          (.opt i none :: r.1, r.2)

/-- `parseOptions(argc, argv, options)`, /repo/src/lib/cmd.c:94-137; `argv` with the program's name (which is the name of the command). -/
def parseArgv (opts : List Opt) (argv : List Str) : Res Parsed :=
  let g := getopt opts argv.tail
  parseOptions opts g.1 (argv.length - g.2.length)

end Nfqlb.Cmd
