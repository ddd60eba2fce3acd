import Mathlib.Data.Nat.Prime.Defs

/-! Specification for prime numbers below a bound (independent of the model). -/

namespace Nfqlb.Spec

/-- `p` is the largest prime that is at most `n`. -/
def IsLargestPrimeUpTo (n p : Nat) : Prop :=
  Nat.Prime p ∧ p ≤ n ∧ ∀ q, Nat.Prime q → q ≤ n → q ≤ p

end Nfqlb.Spec
