import Verif.Proof.Prime

/-! Property C01. -/

namespace Nfqlb.Props

open Nfqlb.Prime

/-- **C01** For every 32-bit `n ≥ 2`, `primeBelow(n)` returns (it terminates, does not `die`), and
the result is the largest prime among the numbers that are `≤ n` and `≤ 994009`. -/
theorem C01_primeBelow_largest_prime (n : Nat) (h2 : 2 ≤ n) (_h32 : n < 2 ^ 32) :
    ∃ p, primeBelow n = .ok p ∧ Spec.IsLargestPrimeUpTo (min n 994009) p := by
  unfold primeBelow
  have hmin : (if n ≥ 994009 then 994009 else n) = min n 994009 := by
    split <;> omega
  simp only [hmin]
  have hle : min n 994009 ≤ 994009 := Nat.min_le_right _ _
  have hge : 2 ≤ min n 994009 := by omega
  generalize min n 994009 = m at hle hge
  rw [if_neg (by omega)]
  by_cases h4 : m < 4
  · rw [if_pos h4]
    refine ⟨m, rfl, ?_, Nat.le_refl m, fun q _ h => h⟩
    have : m = 2 ∨ m = 3 := by omega
    rcases this with rfl | rfl
    · exact Nat.prime_two
    · exact Nat.prime_three
  · rw [if_neg h4]
    by_cases he : m % 2 = 0
    · rw [if_pos he]
      obtain ⟨p, hp, hpp, hle', hmax⟩ := descend_correct (m - 1) (m - 1) (Nat.le_refl _)
        (by omega) (by omega) (by omega)
      refine ⟨p, hp, hpp, by omega, ?_⟩
      intro q hq hqm
      by_cases h : q = m
      · subst h; rcases hq.eq_two_or_odd with h' | h' <;> omega
      · exact hmax q hq (by omega)
    · rw [if_neg he]
      exact descend_correct m m (Nat.le_refl _) (by omega) (by omega) (by omega)

/-- The hypotheses are met, e.g. by the program's default table size. -/
example : ∃ p, primeBelow 1000 = .ok p ∧ Spec.IsLargestPrimeUpTo (min 1000 994009) p :=
  C01_primeBelow_largest_prime 1000 (by decide) (by decide)

/-- **C01** (error branch) below 2 there is no prime and the program terminates with an error. -/
theorem C01_primeBelow_dies_below_two (n : Nat) (h : n < 2) : primeBelow n = .die := by
  unfold primeBelow
  have : (if n ≥ 994009 then 994009 else n) = n := by split <;> omega
  simp only [this]
  rw [if_pos h]

example : primeBelow 1 = .die := C01_primeBelow_dies_below_two 1 (by decide)

/-- What the comment in /repo/src/lib/prime.h claims ("if n >= 994009 then 994009 is returned")
is not what the code does: 994009 = 997², the value returned is a prime, hence a different number. -/
theorem C01_header_comment_is_wrong (n : Nat) (h : 994009 ≤ n) (h32 : n < 2 ^ 32) :
    primeBelow n ≠ .ok 994009 := by
  obtain ⟨p, hp, hpp, _⟩ := C01_primeBelow_largest_prime n (by omega) h32
  rw [hp]
  intro he
  injection he with he
  subst he
  exact absurd hpp (by
    intro hpr
    have : (997 : Nat) ∣ 994009 := ⟨997, by decide⟩
    rcases (Nat.dvd_prime hpr).1 this with h | h <;> omega)

example : primeBelow 4294967295 ≠ .ok 994009 := C01_header_comment_is_wrong _ (by decide) (by decide)

end Nfqlb.Props
