/-! Specification of a load-balancing table (independent of the model's helpers). -/

namespace Nfqlb.Spec

/-- Target slot `i` is active: the active array holds a non-negative fwmark there. -/
def ActiveAt (active : List Int) (i : Nat) : Prop :=
  ∃ fw : Int, active[i]? = some fw ∧ 0 ≤ fw

/-- Every one of the `M` lookup slots holds the index of an active target. -/
def FullyAssigned (M : Nat) (lookup active : List Int) : Prop :=
  lookup.length = M ∧
  ∀ c, c < M → ∃ i : Nat, lookup[c]? = some (i : Int) ∧ ActiveAt active i

/-- The table says "no target" everywhere. -/
def AllEmpty (M : Nat) (lookup : List Int) : Prop :=
  lookup.length = M ∧ ∀ c, c < M → lookup[c]? = some (-1)

/-- What a lookup table must look like for a given active array. -/
def GoodTable (M : Nat) (lookup active : List Int) : Prop :=
  ((∃ i, ActiveAt active i) → FullyAssigned M lookup active) ∧
  ((¬ ∃ i, ActiveAt active i) → AllEmpty M lookup)

/-- Number of lookup slots owned by target `i`. -/
def slots (lookup : List Int) (i : Nat) : Nat := lookup.count (i : Int)

/-- The load is even: any two active targets own numbers of slots that differ by at most one. -/
def Balanced (lookup active : List Int) : Prop :=
  ∀ i j, ActiveAt active i → ActiveAt active j → slots lookup i ≤ slots lookup j + 1

/-- A row of the permutation matrix: each of `0..M-1` exactly once. -/
def IsPermutationRow (M : Nat) (row : List Nat) : Prop := row.Perm (List.range M)

end Nfqlb.Spec
