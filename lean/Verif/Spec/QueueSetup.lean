import Verif.Spec.NlMsg

/-! What threads that set up queues at the same time send: small definitions for C100. -/

set_option autoImplicit false

namespace Nfqlb.Spec.Nl

/-- The second list has what the lists of the first have, those of each list in their order, and otherwise in any order. -/
inductive Shuffle {α : Type} : List (List α) → List α → Prop
  | done {ls : List (List α)} : (∀ l ∈ ls, l = []) → Shuffle ls []
  | pick {ls : List (List α)} {l : List α} (i : Nat) (a : α) (r : List α) : ls[i]? = some (a :: r) → Shuffle (ls.set i r) l → Shuffle ls (a :: l)

end Nfqlb.Spec.Nl
