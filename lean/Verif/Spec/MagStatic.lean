/-! Specification of a table in arrays of fixed size (independent of the model). -/

namespace Nfqlb.Spec

/-- Target `i` of `n` is active: the (unsigned) number in its place is not zero. -/
def ActiveTarget (n : Nat) (active : List Nat) (i : Nat) : Prop :=
  i < n ∧ ∃ a, active[i]? = some a ∧ a ≠ 0

/-- The number of the first `m` slots that belong to target `i`. -/
def share (m : Nat) (lookup : List Int) (i : Nat) : Nat := (lookup.take m).count (i : Int)

end Nfqlb.Spec
