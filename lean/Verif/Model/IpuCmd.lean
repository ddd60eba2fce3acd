import Verif.Model.Ipu
import Verif.Model.Session

/-! The commands `makeip` and `contains` of `ipu` on a command line, /repo/src/ipu/ipu.c:47-232. -/

set_option autoImplicit false

namespace Nfqlb.Ipu

open Nfqlb

/-- `cmdMakeip` on a command line, /repo/src/ipu/ipu.c:47-154. A NULL pointer for one of the first three options would be undefined (:69 and :86-87); it can not occur (C75). -/
def makeipArgv (argv : List Str) : Res Printed := do
  let (vars, _) ← Cmd.parseOrDie Cmd.makeipOpts argv
  match Cmd.valueOf vars "cidr".toList, Cmd.valueOf vars "net".toList, Cmd.valueOf vars "host".toList with
  | some cidr, some net, some host => makeip ⟨cidr, net, host, Cmd.valueOf vars "subnet".toList, Cmd.valueOf vars "ipv6template".toList⟩
  | _, _, _ => .ub

/-- The options of `contains`, /repo/src/ipu/ipu.c:175-183. -/
def containsOpts : List Cmd.Opt := [Cmd.helpOpt, Cmd.row "cidr" none true]

/-- `cmdContains` on a command line, /repo/src/ipu/ipu.c:173-232: the first element behind the options is the address. -/
def containsArgv (argv : List Str) : Res Nat := do
  let (vars, _) ← Cmd.parseOrDie containsOpts argv
  match Session.words containsOpts argv with
  | [] => .die
  | adr :: _ =>
    match Cmd.valueOf vars "cidr".toList with
    | some cidr => contains cidr adr
    | none => .ub

end Nfqlb.Ipu
