import Verif.Model.Shmem
import Verif.Spec.Shmem

/-! Lemmas about writing shared memory. -/

set_option autoImplicit false

namespace Nfqlb.Shmem

open Nfqlb Nfqlb.Spec.Shm

theorem toSsize_eq (n : Nat) (h : n < 9223372036854775808) : toSsize n = n := by
  unfold toSsize; split <;> omega

/-- What is in the file is always the first part of the data; when the size comes back, all is. -/
theorem writeFull_file (size : Nat) (ws : List Wr) : ∀ (data : List UInt8) (file : List UInt8),
    match writeFull size ws data (data.length : Int) file with
    | .ok (r, f) => (∃ n, f = file ++ data.take n) ∧ (r = -1 ∨ (r = toSsize size ∧ f = file ++ data))
    | .ub => False
    | .die => False
    | .hang => True := by
  induction ws with
  | nil =>
    intro data file
    unfold writeFull
    by_cases h : ((data.length : Int) > 0)
    · rw [if_pos h]; trivial
    · rw [if_neg h]
      have : data = [] := by cases data with | nil => rfl | cons => simp at h
      subst this
      exact ⟨⟨0, by simp⟩, Or.inr ⟨rfl, by simp⟩⟩
  | cons w ws ih =>
    intro data file
    unfold writeFull
    by_cases h : ((data.length : Int) > 0)
    · rw [if_pos h]
      cases w with
      | again => exact ih data file
      | error => exact ⟨⟨0, by simp⟩, Or.inl rfl⟩
      | wrote n =>
        dsimp only
        by_cases hn : (n : Int) > data.length
        · rw [if_pos hn]; trivial
        · rw [if_neg hn, if_neg (by omega)]
          have hl : ((data.length : Int) - n) = ((data.drop n).length : Int) := by rw [List.length_drop]; omega
          rw [hl]
          have := ih (data.drop n) (file ++ data.take n)
          revert this
          cases writeFull size ws (data.drop n) ((data.drop n).length : Int) (file ++ data.take n) with
          | ok p =>
            obtain ⟨r, f⟩ := p
            rintro ⟨⟨k, hk⟩, h2⟩
            refine ⟨⟨n + k, ?_⟩, ?_⟩
            · rw [hk, List.append_assoc, List.take_add]
            · rcases h2 with h2 | ⟨h2, h3⟩
              · exact Or.inl h2
              · refine Or.inr ⟨h2, ?_⟩
                rw [h3, List.append_assoc, List.take_append_drop]
          | die => exact id
          | ub => exact id
          | hang => exact id
    · rw [if_neg h]
      have : data = [] := by cases data with | nil => rfl | cons => simp at h
      subst this
      exact ⟨⟨0, by simp⟩, Or.inr ⟨rfl, by simp⟩⟩

/-- When the kernel takes all, all is written. -/
theorem writeFull_completes (size : Nat) (ws : List Wr) : ∀ (data : List UInt8) (file : List UInt8),
    Completes data.length ws → writeFull size ws data (data.length : Int) file = .ok (toSsize size, file ++ data) := by
  induction ws with
  | nil =>
    intro data file hc
    have : data = [] := List.length_eq_zero_iff.mp (by have := hc.2; simpa [total] using this.symm)
    subst this
    unfold writeFull
    simp
  | cons w ws ih =>
    intro data file hc
    unfold writeFull
    by_cases h : ((data.length : Int) > 0)
    · rw [if_pos h]
      obtain ⟨he, ht⟩ := hc
      cases w with
      | again => exact ih data file ⟨fun hm => he (List.mem_cons_of_mem _ hm), ht⟩
      | error => exact absurd List.mem_cons_self he
      | wrote n =>
        dsimp only
        simp only [total] at ht
        rw [if_neg (by omega), if_neg (by omega)]
        have hl : ((data.length : Int) - n) = ((data.drop n).length : Int) := by rw [List.length_drop]; omega
        rw [hl, ih _ _ ⟨fun hm => he (List.mem_cons_of_mem _ hm), by rw [List.length_drop]; omega⟩, List.append_assoc, List.take_append_drop]
    · rw [if_neg h]
      have : data = [] := by cases data with | nil => rfl | cons => simp at h
      subst this
      simp

theorem toInt_eq (n : Int) (h0 : 0 ≤ n) (h : n < 2147483648) : toInt n = n := by
  unfold toInt; split <;> omega

theorem toInt_mod (n : Int) : toInt n % 4294967296 = n % 4294967296 ∧ -2147483648 ≤ toInt n ∧ toInt n < 2147483648 := by
  unfold toInt
  split
  · rw [Int.emod_emod_of_dvd _ (Int.dvd_refl _)]
    omega
  · rw [Int.sub_emod_right, Int.emod_emod_of_dvd _ (Int.dvd_refl _)]
    omega

theorem toInt_neg_one : toInt (-1) = -1 := by decide

theorem create_ok (opened : Int) (data file : List UInt8) (len : Nat) (r : Int) (ws : List Wr) (ho : ¬ opened < 0)
   (h : writeFull len ws data (toSsize len) [] = .ok (r, file)) (hr : toInt r % 18446744073709551616 = (len : Int)) :
    createSharedData opened data len ws = .ok (0, file) := by
  unfold createSharedData
  rw [if_neg ho, h]
  show (if toInt r % 18446744073709551616 ≠ (len : Int) then _ else _) = _
  rw [if_neg (not_not_intro hr)]
  exact Res.pure_eq _

theorem create_bad (opened : Int) (data file : List UInt8) (len : Nat) (r : Int) (ws : List Wr) (ho : ¬ opened < 0)
   (h : writeFull len ws data (toSsize len) [] = .ok (r, file)) (hr : toInt r % 18446744073709551616 ≠ (len : Int)) :
    createSharedData opened data len ws = .ok (toInt r, file) := by
  unfold createSharedData
  rw [if_neg ho, h]
  simp only [Res.ok_bind]
  rw [if_pos hr, Res.pure_eq]

theorem create_value (opened : Int) (data : List UInt8) (ws : List Wr) (ho : 0 ≤ opened) (hd : data.length < 9223372036854775808) (hl : 2147483648 ≤ data.length) (hc : Completes data.length ws) :
    createSharedData opened data data.length ws = .ok (toInt data.length, data) := by
  have h1 : toSsize data.length = (data.length : Int) := toSsize_eq _ hd
  have h5 := writeFull_completes data.length ws data [] hc
  have hm := toInt_mod data.length
  have hne : toInt data.length % 18446744073709551616 ≠ (data.length : Int) := by
    generalize toInt data.length = c at hm ⊢
    omega
  rw [h1] at h5
  exact create_bad opened data data data.length data.length ws (by omega) (by rw [h1]; exact h5) hne

end Nfqlb.Shmem
