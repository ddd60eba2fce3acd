import Verif.Model.Maglev
import Verif.Spec.MaglevConfig

/-! The commands of /repo/src/nfqlb/cmdConfig.c used without `--index`. -/

namespace Nfqlb.Maglev

/-- An invocation without `--index`, /repo/src/nfqlb/cmdConfig.c:48-68 and :104-117, as a command of the model. -/
def ofMark : Spec.MarkCmd → Cmd
  | .activate fws => .activate fws
  | .deactivate fws => .deactivate fws

end Nfqlb.Maglev
