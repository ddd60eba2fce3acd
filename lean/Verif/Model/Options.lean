import Verif.Model.Cmd

/-! The options of the commands of `nfqlb` and `ipu`, and `parseOptionsOrDie`. -/

namespace Nfqlb.Cmd

open Nfqlb

/-- The first row of each table, e.g. /repo/src/nfqlb/cmdLb.c:142-144. -/
def helpOpt : Opt := ⟨"help".toList, none, false⟩

/-- A row with a variable: its name, the value that the variable is initialised with (`none` for NULL), and whether the flags are REQUIRED (/repo/src/lib/cmd.h:29-35). -/
def row (name : String) (default : Option String) (required : Bool := false) : Opt := ⟨name.toList, some (default.map String.toList), required⟩

/-- A command: its name, its options, and the names of the options whose values it uses without testing for NULL. /repo/src/lib/cmd.c:17-20 and the tables of options, e.g. /repo/src/nfqlb/cmdLb.c:141-162. -/
structure Command where
  name : Str
  opts : List Opt
  uses : List Str
  deriving Repr, DecidableEq

/-- `cmdActivate` and `cmdDeactivate`, /repo/src/nfqlb/cmdConfig.c:17-27 and :76-86; `shm` is used in :32 and :91 (`index` is tested in :36 and :95). `defaultTargetShm` is in /repo/src/nfqlb/cmdShm.c:20. -/
def activateOpts : List Opt := [helpOpt, row "shm" (some "nfqlb"), row "index" none]

/-- `cmdFlowSet`, /repo/src/nfqlb/cmdFlow.c:14-40; `name` and `target` are used in :70-71, the others are tested (:43-63 and :72-87). -/
def flowSetOpts : List Opt := [helpOpt, row "name" none true, row "target" none true, row "prio" none, row "protocols" none, row "dsts" none, row "srcs" none, row "dports" none, row "sports" none, row "match" none,
  row "udpencap" none]

/-- `cmdFlowDelete` and `cmdTraceFlowDelete`, /repo/src/nfqlb/cmdFlow.c:103-110 and /repo/src/nfqlb/cmdTrace.c:188-195; `name` is used in /repo/src/nfqlb/cmdFlow.c:117 and /repo/src/nfqlb/cmdTrace.c:200. -/
def flowDeleteOpts : List Opt := [helpOpt, row "name" none true]

/-- `cmdFlowList` and `cmdTraceFlowList`, /repo/src/nfqlb/cmdFlow.c:132-139 and /repo/src/nfqlb/cmdTrace.c:215-222; `name` is tested (/repo/src/nfqlb/cmdFlow.c:146 and /repo/src/nfqlb/cmdTrace.c:227). -/
def flowListOpts : List Opt := [helpOpt, row "name" none]

/-- `cmdFlowLb`, /repo/src/nfqlb/cmdFlowLb.c:241-280. -/
def flowLbOpts : List Opt := [helpOpt, row "lbshm" none, row "mtu" (some "1500"), row "tun" none, row "reassembler" (some "0"), row "promiscuous_ping" (some "no"), row "notargets_fwmark" (some "-1"),
  row "nolb_fwmark" (some "-1"), row "hash_mode" (some "1"), row "queue" (some "2"), row "qlength" (some "1024"), row "ft_shm" (some "ftshm"), row "ft_size" (some "500"), row "ft_buckets" (some "500"),
  row "ft_frag" (some "100"), row "ft_ttl" (some "200"), row "trace_address" (some "unix:nfqlb-trace")]

/-- `cmdLb`, /repo/src/nfqlb/cmdLb.c:125-163. -/
def lbOpts : List Opt := [helpOpt, row "mtu" (some "1500"), row "tun" none, row "reassembler" (some "0"), row "sctp_encap" (some "0"), row "tshm" (some "nfqlb"), row "lbshm" none, row "notargets_fwmark" (some "-1"),
  row "hash_mode" (some "1"), row "queue" (some "2"), row "qlength" (some "1024"), row "ft_shm" (some "ftshm"), row "ft_size" (some "500"), row "ft_buckets" (some "500"), row "ft_frag" (some "100"),
  row "ft_ttl" (some "200"), row "trace_address" (some "unix:nfqlb-trace")]

/-- `cmdFwmark`, /repo/src/nfqlb/cmdFwmark.c:21-37. -/
def fwmarkOpts : List Opt := [helpOpt, row "shm" none, row "proto" none, row "src" none true, row "dst" none true, row "hash_mode" (some "1")]

/-- `cmdInit`, /repo/src/nfqlb/cmdShm.c:36-49; all are used (:52-64). -/
def initOpts : List Opt := [helpOpt, row "ownfw" (some "0"), row "shm" (some "nfqlb"), row "N" (some "32"), row "M" (some "997")]

/-- `cmdTrace`, /repo/src/nfqlb/cmdTrace.c:40-53; `trace_address` is used in :77, the others are tested (:55-69). -/
def traceOpts : List Opt := [helpOpt, row "mask" none, row "selection" none, row "trace_address" (some "unix:nfqlb-trace")]

/-- `cmdTraceFlowSet`, /repo/src/nfqlb/cmdTrace.c:118-138; `name` is used in :161, the others are tested (:141-155 and :162-173). -/
def traceFlowSetOpts : List Opt := [helpOpt, row "name" none true, row "protocols" none, row "dsts" none, row "srcs" none, row "dports" none, row "sports" none, row "match" none]

/-- `cmdMakeip`, /repo/src/ipu/ipu.c:49-66; `cidr`, `net` and `host` are used in :69-71 and :86-87, the others are tested. -/
def makeipOpts : List Opt := [helpOpt, row "cidr" none true, row "net" (some "0"), row "host" (some "0"), row "subnet" none, row "ipv6template" none]

/-- All commands of the two programs with their options (the functions are those of `nfqlbCommands` and `ipuCommands`). `lb` uses its values in /repo/src/nfqlb/cmdLb.c:165-244 (`lbshm` and `tun` are tested, :169 and
:193), `flowlb` in /repo/src/nfqlb/cmdFlowLb.c:282-367 (`lbshm`, `promiscuous_ping` and `tun` are tested, :284, :293 and :312), `fwmark` in /repo/src/nfqlb/cmdFwmark.c:45-53 (`proto` and `shm` are tested, :56 and :65), `delete`
in /repo/src/nfqlb/cmdShm.c:79, `show` in :112, `stats` in :147, `contains` in /repo/src/ipu/ipu.c:189; the commands without variables have the first row only. -/
def commands : List Command := [
  ⟨"activate".toList, activateOpts, ["shm".toList]⟩,
  ⟨"deactivate".toList, activateOpts, ["shm".toList]⟩,
  ⟨"version".toList, [helpOpt], []⟩,
  ⟨"flow-set".toList, flowSetOpts, ["name".toList, "target".toList]⟩,
  ⟨"flow-delete".toList, flowDeleteOpts, ["name".toList]⟩,
  ⟨"flow-list".toList, flowListOpts, []⟩,
  ⟨"flow-list-names".toList, [helpOpt], []⟩,
  ⟨"flowlb".toList, flowLbOpts, ["mtu".toList, "reassembler".toList, "notargets_fwmark".toList, "nolb_fwmark".toList, "hash_mode".toList, "queue".toList, "qlength".toList, "ft_shm".toList, "ft_size".toList,
    "ft_buckets".toList, "ft_frag".toList, "ft_ttl".toList, "trace_address".toList]⟩,
  ⟨"fwmark".toList, fwmarkOpts, ["src".toList, "dst".toList, "hash_mode".toList]⟩,
  ⟨"lb".toList, lbOpts, ["mtu".toList, "reassembler".toList, "sctp_encap".toList, "tshm".toList, "notargets_fwmark".toList, "hash_mode".toList, "queue".toList, "qlength".toList, "ft_shm".toList, "ft_size".toList,
    "ft_buckets".toList, "ft_frag".toList, "ft_ttl".toList, "trace_address".toList]⟩,
  ⟨"init".toList, initOpts, ["ownfw".toList, "shm".toList, "N".toList, "M".toList]⟩,
  ⟨"delete".toList, [helpOpt, row "shm" none true], ["shm".toList]⟩,
  ⟨"show".toList, [helpOpt, row "shm" (some "nfqlb")], ["shm".toList]⟩,
  ⟨"stats".toList, [helpOpt, row "ft_shm" (some "ftshm")], ["ft_shm".toList]⟩,
  ⟨"primebelow".toList, [helpOpt], []⟩,
  ⟨"trace".toList, traceOpts, ["trace_address".toList]⟩,
  ⟨"loglevel".toList, [helpOpt], []⟩,
  ⟨"trace-flow-set".toList, traceFlowSetOpts, ["name".toList]⟩,
  ⟨"trace-flow-delete".toList, flowDeleteOpts, ["name".toList]⟩,
  ⟨"trace-flow-list".toList, flowListOpts, []⟩,
  ⟨"trace-flow-list-names".toList, [helpOpt], []⟩,
  ⟨"linklocal".toList, [helpOpt], []⟩,
  ⟨"makeip".toList, makeipOpts, ["cidr".toList, "net".toList, "host".toList]⟩,
  ⟨"contains".toList, [helpOpt, row "cidr" none true], ["cidr".toList]⟩,
  ⟨"version".toList, [helpOpt], []⟩,
  ⟨"man".toList, [helpOpt], []⟩]

/-- `parseOptionsOrDie`, /repo/src/lib/cmd.c:139-145: the variables and how many elements of `argv` were options; the program ends when there is an error, and after `--help`. -/
def parseOrDie (opts : List Opt) (argv : List Str) : Res (List Opt × Nat) := do
  let p ← parseArgv opts argv
  if 0 < p.rc then return (p.vars, p.rc.toNat) else .die

/-- The value of the variable for an option, `none` for NULL (each option has its own variable). E.g. /repo/src/nfqlb/cmdLb.c:125-140. -/
def valueOf (vars : List Opt) (name : Str) : Option Str :=
  match vars.find? (fun o => o.name == name) with
  | some o => o.arg.join
  | none => none

end Nfqlb.Cmd
