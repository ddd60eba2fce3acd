import Verif.Model.Maglev

/-! The configurations that a history of commands goes through. -/

namespace Nfqlb.Spec

open Maglev

/-- The tables between the commands of a history (including first and last). -/
def stages (d : Mag) : List Cmd → List Mag
  | [] => [d]
  | c :: cs =>
    match runCmd d c with
    | .ok d' => d :: stages d' cs
    | .die => stages d cs
    | _ => [d]

end Nfqlb.Spec
