import Verif.Model.MaglevMem

/-! Specification for the placement of the tables in memory. -/

namespace Nfqlb.Spec

/-- Two regions have no byte in common. -/
def DisjointRegions (a b : Maglev.Region) : Prop :=
  ∀ x, ¬ ((a.off ≤ x ∧ x < a.off + a.size) ∧ (b.off ≤ x ∧ x < b.off + b.size))

/-- A region lies in the memory `0..len-1`. -/
def InMemory (len : Nat) (a : Maglev.Region) : Prop := ∀ x, a.off ≤ x → x < a.off + a.size → x < len

end Nfqlb.Spec
