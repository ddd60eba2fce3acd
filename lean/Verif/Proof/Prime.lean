import Verif.Model.Prime
import Verif.Spec.Prime
import Mathlib.Data.Nat.Prime.Basic

namespace Nfqlb.Prime

/-- The table contains every odd prime below 1000. -/
theorem table_complete : ∀ p, p < 1000 → 3 ≤ p → Nat.Prime p → p ∈ primes := by
  have h : ∀ p ∈ List.range 1000, p < 3 ∨ p ∈ primes ∨
      ∃ d ∈ List.range 32, 2 ≤ d ∧ d < p ∧ p % d = 0 := by
    decide +kernel
  intro p hp h3 hpr
  rcases h p (List.mem_range.2 hp) with h | h | ⟨d, _, h2, hdp, hmod⟩
  · omega
  · exact h
  · rcases (Nat.dvd_prime hpr).1 (Nat.dvd_of_mod_eq_zero hmod) with h | h <;> omega

theorem table_range : ∀ p ∈ primes, 3 ≤ p ∧ p ≤ 997 := by decide +kernel

theorem table_sorted : primes.Pairwise (· < ·) := by decide +kernel

theorem mem_997 : 997 ∈ primes := by decide +kernel

/-- The trial division loop, started after a prefix `done` of the table has been tried. -/
theorem trial_correct (n : Nat) (hn : n ≤ 994009) (h3 : 3 ≤ n) (hodd : n % 2 = 1)
    (rest : List Nat) :
    ∀ done, primes = done ++ rest → (∀ t ∈ done, n % t ≠ 0) →
      (∀ t ∈ done, t * t ≤ n) → 
      (∃ b, trial n rest = .ok b ∧ (b = true ↔ Nat.Prime n)) := by
  induction rest with
  | nil =>
    intro done hd hnd hsq
    have h997 : 997 ∈ done := by simpa [hd] using mem_997
    have := hsq _ h997
    have : n = 994009 := by omega
    have := hnd _ h997
    subst_vars
    exact absurd rfl this
  | cons t ts ih =>
    intro done hd hnd hsq
    have htm : t ∈ primes := by rw [hd]; simp
    have htr := table_range t htm
    have hsqle : t * t ≤ 997 * 997 := Nat.mul_le_mul htr.2 htr.2
    have hu : u32 (t * t) = t * t := by unfold u32; exact Nat.mod_eq_of_lt (by omega)
    unfold trial
    rw [hu]
    by_cases hgt : t * t > n
    · rw [if_pos hgt]
      refine ⟨true, rfl, ?_⟩
      simp only [true_iff]
      rw [Nat.prime_def_le_sqrt]
      refine ⟨by omega, ?_⟩
      intro m hm2 hms hmd
      -- a prime factor of m
      have hm1 : m ≠ 1 := by omega
      have hq := Nat.minFac_prime hm1
      set q := Nat.minFac m with hqdef
      have hqm : q ≤ m := Nat.minFac_le (by omega)
      have hqn : q ∣ n := Dvd.dvd.trans (Nat.minFac_dvd m) hmd
      have hmm : m * m ≤ n := Nat.le_sqrt.1 hms
      have hqq : q * q ≤ n := le_trans (Nat.mul_le_mul hqm hqm) hmm
      have hqt : q < t := by
        by_contra hc
        have := Nat.mul_le_mul (Nat.not_lt.1 hc) (Nat.not_lt.1 hc)
        omega
      have hq2 : q ≠ 2 := by
        intro h2
        rw [h2] at hqn
        omega
      have hq3 : 3 ≤ q := by have := hq.two_le; omega
      have hqmem := table_complete q (by omega) hq3 hq
      rw [hd] at hqmem
      have hsorted := table_sorted
      rw [hd] at hsorted
      rcases List.mem_append.1 hqmem with h | h
      · exact hnd q h (Nat.mod_eq_zero_of_dvd hqn)
      · rcases List.mem_cons.1 h with h | h
        · omega
        · have := (List.pairwise_cons.1 (List.pairwise_append.1 hsorted).2.1).1 q h
          omega
    · rw [if_neg hgt]
      by_cases hmod : n % t = 0
      · rw [if_pos hmod]
        refine ⟨false, rfl, ?_⟩
        simp only [Bool.false_eq_true, false_iff]
        intro hp
        rcases (Nat.dvd_prime hp).1 (Nat.dvd_of_mod_eq_zero hmod) with h | h
        · omega
        · subst h
          have : t * 3 ≤ t * t := Nat.mul_le_mul_left t (by omega)
          omega
      · rw [if_neg hmod]
        refine ih (done ++ [t]) (by simp [hd]) ?_ ?_
        · intro x hx
          rcases List.mem_append.1 hx with h | h
          · exact hnd x h
          · simp at h; subst h; exact hmod
        · intro x hx
          rcases List.mem_append.1 hx with h | h
          · exact hsq x h
          · simp at h; subst h; omega

theorem isPrime_correct (n : Nat) (hn : n ≤ 994009) (h2 : 2 ≤ n) :
    ∃ b, isPrime n = .ok b ∧ (b = true ↔ Nat.Prime n) := by
  unfold isPrime
  by_cases h : n = 2
  · subst h; exact ⟨true, by simp, by simp [Nat.prime_two]⟩
  · rw [if_neg h]
    by_cases he : n = 1 ∨ n % 2 = 0
    · rw [if_pos he]
      refine ⟨false, rfl, ?_⟩
      simp only [Bool.false_eq_true, false_iff]
      intro hp
      rcases hp.eq_two_or_odd with h' | h' <;> omega
    · rw [if_neg he]
      exact trial_correct n hn (by omega) (by omega) primes [] rfl (by simp) (by simp)

theorem descend_correct (fuel : Nat) :
    ∀ n, n ≤ fuel → n ≤ 994009 → 3 ≤ n → n % 2 = 1 →
      ∃ p, descend fuel n = .ok p ∧ Spec.IsLargestPrimeUpTo n p := by
  induction fuel with
  | zero => intro n h; omega
  | succ fuel ih =>
    intro n hf hn h3 hodd
    obtain ⟨b, hb, hbp⟩ := isPrime_correct n hn (by omega)
    unfold descend
    rw [hb]
    cases b with
    | true => exact ⟨n, rfl, hbp.1 rfl, Nat.le_refl n, fun q _ h => h⟩
    | false =>
      have hnp : ¬ Nat.Prime n := fun h => by simpa using hbp.2 h
      have h3' : n ≠ 3 := by rintro rfl; exact hnp Nat.prime_three
      have hu : u32 (n + 4294967294) = n - 2 := by unfold u32; omega
      simp only [hu]
      obtain ⟨p, hp, hpp, hple, hmax⟩ := ih (n - 2) (by omega) (by omega) (by omega) (by omega)
      refine ⟨p, hp, hpp, by omega, ?_⟩
      intro q hq hqn
      by_cases h1 : q ≤ n - 2
      · exact hmax q hq h1
      · have : q = n - 1 ∨ q = n := by omega
        rcases this with h | h
        · rcases hq.eq_two_or_odd with h' | h' <;> omega
        · subst h; exact absurd hq hnp

end Nfqlb.Prime
