import Verif.Proof.Shmem

/-! C59: shared memory is written completely. -/

set_option autoImplicit false

namespace Nfqlb.Props

open Nfqlb Nfqlb.Shmem Nfqlb.Spec.Shm

/-- **C59.** Whatever `shm_open` and the sequence of calls of `write` return: when `createSharedData` reports success, the file contains exactly the data. (An object of C is smaller than 2^63 bytes.) -/
theorem C59_complete (opened : Int) (data : List UInt8) (ws : List Wr) (file : List UInt8) (hd : data.length < 9223372036854775808)
    (h : createSharedData opened data data.length ws = .ok (0, file)) : file = data := by
  unfold createSharedData at h
  split at h
  · rename_i ho
    simp only [Res.ok.injEq, Prod.mk.injEq] at h
    omega
  · rw [toSsize_eq _ hd] at h
    have hf := writeFull_file data.length ws data []
    cases hw : writeFull data.length ws data (data.length : Int) [] with
    | ok p =>
      obtain ⟨r, f⟩ := p
      rw [hw] at h hf
      simp only [Res.ok_bind] at h
      rcases hf.2 with hr | ⟨_, hfd⟩
      · subst hr
        rw [toInt_neg_one] at h
        rw [if_pos (by omega)] at h
        simp at h
      · have : f = file := by
          split at h <;> simp at h <;> first | exact h.2 | exact h
        rw [← this, hfd]; rfl
    | die => rw [hw] at h; cases h
    | ub => rw [hw] at h; cases h
    | hang => rw [hw] at h; cases h

/-- **C59.** In any case, the file contains a first part of the data, and nothing outside the data is read. -/
theorem C59_prefix (opened : Int) (data : List UInt8) (ws : List Wr) (hd : data.length < 9223372036854775808) :
    createSharedData opened data data.length ws ≠ .ub ∧
    ∀ rc file, createSharedData opened data data.length ws = .ok (rc, file) → ∃ n, file = data.take n := by
  unfold createSharedData
  split
  · refine ⟨by simp, fun rc file h => ⟨0, ?_⟩⟩
    simp only [Res.ok.injEq, Prod.mk.injEq] at h
    simp [← h.2]
  · rw [toSsize_eq _ hd]
    have hf := writeFull_file data.length ws data []
    cases hw : writeFull data.length ws data (data.length : Int) [] with
    | ok p =>
      obtain ⟨r, f⟩ := p
      rw [hw] at hf
      simp only [Res.ok_bind]
      obtain ⟨⟨n, hn⟩, _⟩ := hf
      refine ⟨by split <;> simp, fun rc file h => ⟨n, ?_⟩⟩
      have : f = file := by split at h <;> simp at h <;> first | exact h.2 | exact h
      rw [← this, hn]; rfl
    | die => simp
    | ub => rw [hw] at hf; exact hf.elim
    | hang => simp

/-- **C59**, and the other way: if the kernel in the end takes all bytes, in whatever parts and with whatever interruptions, success is reported for data of less than 2 GiB. -/
theorem C59_success (opened : Int) (data : List UInt8) (ws : List Wr) (ho : 0 ≤ opened) (hd : data.length < 2147483648) (hc : Completes data.length ws) :
    createSharedData opened data data.length ws = .ok (0, data) := by
  have h1 : toSsize data.length = (data.length : Int) := toSsize_eq _ (by omega)
  have h2 : toInt (data.length : Int) = (data.length : Int) := toInt_eq _ (by omega) (by omega)
  have h5 := writeFull_completes data.length ws data [] hc
  rw [h1] at h5
  refine create_ok opened data data data.length data.length ws (by omega) ?_ ?_
  · rw [h1]; exact h5
  · rw [h2]; omega

/-- **C59.** For data of any size: if the kernel takes all bytes, all are in the file; the value returned is 0 below 2 GiB, otherwise the size as an `int`. (So for 2 GiB and more a failure is reported, unless the size is a multiple of 4 GiB.) -/
theorem C59_value (opened : Int) (data : List UInt8) (ws : List Wr) (ho : 0 ≤ opened) (hd : data.length < 9223372036854775808) (hc : Completes data.length ws) :
    ∃ rc, createSharedData opened data data.length ws = .ok (rc, data) ∧ (data.length < 2147483648 → rc = 0) ∧
      (2147483648 ≤ data.length → rc % 4294967296 = (data.length : Int) % 4294967296 ∧ -2147483648 ≤ rc ∧ rc < 2147483648) := by
  by_cases hl : data.length < 2147483648
  · exact ⟨0, C59_success opened data ws ho hl hc, fun _ => rfl, fun h => absurd hl (Nat.not_lt.2 h)⟩
  · exact ⟨toInt data.length, create_value opened data ws ho hd (Nat.not_lt.1 hl) hc, fun h => absurd h hl, fun _ => toInt_mod _⟩

/-- **C59.** An error other than an interruption is reported. -/
theorem C59_error (opened : Int) (data : List UInt8) (n : Nat) (ws : List Wr) (hd : data.length < 9223372036854775808) (ho : 0 ≤ opened) (hn : n < data.length) :
    createSharedData opened data data.length (.again :: .wrote n :: .error :: ws) = .ok (-1, data.take n) := by
  unfold createSharedData
  rw [if_neg (by omega), toSsize_eq _ hd]
  have : writeFull data.length (.again :: .wrote n :: .error :: ws) data (data.length : Int) [] = .ok (-1, data.take n) := by
    unfold writeFull
    rw [if_pos (by omega)]
    dsimp only
    unfold writeFull
    rw [if_pos (by omega)]
    dsimp only
    rw [if_neg (by omega), if_neg (by omega)]
    unfold writeFull
    rw [if_pos (by omega)]
    rfl
  rw [this]
  simp only [Res.ok_bind, toInt_neg_one]
  rw [if_pos (by omega)]
  rfl

/-- The code of the comment "A real error" treats `ret == 0` like an interruption, but is not reached for it: no progress is made without a pause. It waits as long as `write` returns 0. -/
theorem C59_zero_waits (data : List UInt8) (k : Nat) (hd : data ≠ []) :
    writeFull data.length (List.replicate k (.wrote 0)) data (data.length : Int) [] = .hang := by
  have hl : 0 < data.length := List.length_pos_iff.mpr hd
  induction k with
  | zero => unfold writeFull; rw [if_pos (by omega)]; rfl
  | succ k ih =>
    rw [List.replicate_succ]
    unfold writeFull
    rw [if_pos (by omega)]
    dsimp only
    rw [if_neg (by omega), if_neg (by omega)]
    simpa using ih

example : Completes 5 [.wrote 2, .again, .wrote 0, .wrote 3] ∧
    createSharedData 3 [1, 2, 3, 4, 5] 5 [.wrote 2, .again, .wrote 0, .wrote 3] = .ok (0, [1, 2, 3, 4, 5]) :=
  ⟨⟨by decide, by decide⟩, by decide⟩

example : createSharedData 3 [1, 2, 3] 3 [.again, .wrote 2, .error] = .ok (-1, [1, 2]) := by decide

end Nfqlb.Props
