import Verif.Proof.MaglevMem
import Verif.Proof.MaglevSet
import Mathlib.Tactic.NormNum.Prime

/-! Properties C06 (placement in shared memory) and C08 (crash of `init`). -/

set_option autoImplicit false

namespace Nfqlb.Props

open Nfqlb.Maglev Nfqlb.Spec

/-- **C06** (partial: `M*N + M + N + 6 < 2^30`, i.e. less than 4 GiB).  The header, the lookup array, all rows and the active
array lie in the memory of the length that `magDataDyn_len` returns, and no two of them overlap.
Missing: larger `M*N`, for which it is false (`C06_large_table_fails`). -/
theorem C06_layout_partial (M N : Nat) (h : M * N + M + N + 6 < 2 ^ 30) :
    (∀ r ∈ regions M N, InMemory (dataLen M N) r) ∧ (regions M N).Pairwise DisjointRegions :=
  layout_ok (by unfold Fits; omega)

/-- The hypothesis holds e.g. for every table with at most 1000 targets and at most a million slots... -/
example (M N : Nat) (hM : M ≤ 1000000) (hN : N ≤ 1000) :
    (∀ r ∈ regions M N, InMemory (dataLen M N) r) ∧ (regions M N).Pairwise DisjointRegions :=
  C06_layout_partial M N (by have := Nat.mul_le_mul hM hN; omega)

/-- ...and the regions are what they should be: header, lookup, N rows, active. -/
example : regions 7 2 = [⟨0, 12⟩, ⟨12, 28⟩, ⟨40, 28⟩, ⟨68, 28⟩, ⟨96, 8⟩] ∧ dataLen 7 2 = 116 := by decide

/-- **C06** is false for large tables: `init --M=65537 --N=65537` is accepted (65537 is prime and N ≤ M), but the length
computed wraps around and already row 5 lies outside the memory. -/
theorem C06_large_table_fails :
    adjustM 65537 = .ok 65537 ∧ (∀ rnd, cmdInit 65537 65537 rnd ≠ .die) ∧
    ∃ r ∈ regions 65537 65537, ¬ InMemory (dataLen 65537 65537) r := by
  have hpr : Nat.Prime 65537 := by norm_num
  have hadj : adjustM 65537 = .ok 65537 := adjustM_idem hpr (by omega) (by omega)
  refine ⟨hadj, ?_, ⟨rowOffset 65537 5, 4 * 65537⟩, ?_, ?_⟩
  · intro rnd h
    unfold cmdInit at h
    rw [hadj] at h
    simp only at h
    rw [if_neg (by omega)] at h
    obtain ⟨d, hd⟩ := init_ok 65537 65537 rnd (by omega)
    rw [hd] at h; simp at h
  · unfold regions
    apply List.mem_append_left
    apply List.mem_append_right
    rw [List.mem_map]
    exact ⟨5, by rw [List.mem_range]; omega, rfl⟩
  · intro h
    have := h (rowOffset 65537 5) (Nat.le_refl _) (by simp)
    revert this
    decide

/-- **C06** The memory written by `init`, read back through `magDataDyn_map`, is the table of the model (the one C02-C05 are
about), whatever was in the memory before. -/
theorem C06_init_roundtrip (M N : Nat) (rnd : Nat → Nat) (junk : WMem)
    (hM : Nat.Prime M) (h3 : 3 ≤ M) (hmax : M ≤ 994009) (hN : N ≤ M) (h : M * N + M + N + 6 < 2 ^ 30)
    (hj : junk.length = dataLen M N / 4) :
    ∃ mem d, wrun junk (initStores M N rnd) = .ok mem ∧ mapMem mem = .ok d ∧ cmdInit M N rnd = .ok d := by
  obtain ⟨mem, h1, h2⟩ := init_mem (M := M) (N := N) (by unfold Fits; omega) (by omega) rnd junk hj
  refine ⟨mem, _, h1, h2, ?_⟩
  have hadj := adjustM_idem hM h3 hmax
  unfold cmdInit
  rw [hadj]
  simp only
  rw [if_neg (by omega)]
  unfold init
  rw [hadj]
  simp only [populate, populateLookup]
  have hz : nActive (List.replicate N (-1 : Int)) = 0 := by
    unfold nActive
    rw [List.length_eq_zero_iff, List.filter_eq_nil_iff]
    intro a ha
    rw [List.mem_replicate] at ha
    simp [ha.2]
  rw [if_pos hz]

example (rnd : Nat → Nat) (junk : WMem) (hj : junk.length = 3997) :
    ∃ mem d, wrun junk (initStores 997 3 rnd) = .ok mem ∧ mapMem mem = .ok d ∧ cmdInit 997 3 rnd = .ok d :=
  C06_init_roundtrip 997 3 rnd junk (by norm_num) (by omega) (by omega) (by omega) (by omega) (by rw [hj]; decide)

/-! ### C08 -/

/-- **C08** (partial: crash before anything is written, or in the last `M` stores of `init`).  If `init` is interrupted during the
final clearing of the lookup table, or not at all, a process that maps the memory sees the right `M` and `N`, all
targets inactive, and finds "no target" for every packet.
Missing: earlier crash points, for which the claim is false (`C08_crash_...`). -/
theorem C08_late_crash_harmless_partial (M N : Nat) (rnd : Nat → Nat) (junk : WMem)
    (hM : 0 < M) (hN : 0 < N) (h : M * N + M + N + 6 < 2 ^ 30) (hj : junk.length = dataLen M N / 4)
    (k : Nat) (hk : (initStores M N rnd).length - M ≤ k) :
    ∃ mem d, wrun junk ((initStores M N rnd).take k) = .ok mem ∧ mapMem mem = .ok d ∧
      d.M = M ∧ d.N = N ∧ d.active = List.replicate N (-1) ∧
      ∀ hash, target d hash = .ok (-1) := by
  obtain ⟨q, hq, hqk⟩ : ∃ q, q ≤ M ∧ (initStores M N rnd).take k = initStoresQ M N rnd q := by
    by_cases hle : k ≤ (initStores M N rnd).length
    · refine ⟨k - ((initStores M N rnd).length - M), by omega, ?_⟩
      rw [← initStores_take rnd _ (by omega)]
      congr 1; omega
    · refine ⟨M, Nat.le_refl _, ?_⟩
      rw [List.take_of_length_le (by omega)]; rfl
  rw [hqk]
  obtain ⟨mem, h1, h2⟩ := init_mem_q (M := M) (N := N) (by unfold Fits; omega) hM rnd junk hj q hq
  refine ⟨mem, _, h1, h2, rfl, rfl, rfl, ?_⟩
  intro hash
  have hlt := Nat.mod_lt hash hM
  unfold target
  simp only
  rw [if_neg (by omega)]
  simp only [List.getElem?_map, List.getElem?_range hlt, Option.map_some]
  by_cases hc : hash % M < q
  · simp [hc]
  · simp [hc, hN]

example (rnd : Nat → Nat) (junk : WMem) (hj : junk.length = 3997) (k : Nat)
    (hk : (initStores 997 3 rnd).length - 997 ≤ k) :
    ∃ mem d, wrun junk ((initStores 997 3 rnd).take k) = .ok mem ∧ mapMem mem = .ok d ∧
      d.M = 997 ∧ d.N = 3 ∧ d.active = List.replicate 3 (-1) ∧ ∀ hash, target d hash = .ok (-1) :=
  C08_late_crash_harmless_partial 997 3 rnd junk (by omega) (by omega) (by omega) (by rw [hj]; decide) k hk

/-- **C08** is false: if `init` dies after the file has been written but before the header is stored, and the malloc'ed block
happened to be zero, a load-balancer can map the memory and divides by zero on the first packet. -/
theorem C08_crash_division_by_zero :
    ∃ (M N : Nat) (rnd : Nat → Nat) (junk mem : WMem) (d : Mag), junk.length = dataLen M N / 4 ∧
      InitFile M N rnd junk (some mem) ∧ mapMem mem = .ok d ∧ ∀ hash, target d hash = .ub := by
  refine ⟨3, 1, fun _ => 0, List.replicate 13 0, List.replicate 13 0, ⟨0, 0, [], [], []⟩, by decide,
    .storing 0 _ rfl, by decide, fun hash => rfl⟩

/-- **C08** is false: if `init` dies after it has stored the header, packets are sent to fwmark 0 though no
target was ever activated. -/
theorem C08_crash_bogus_fwmark :
    ∃ (M N : Nat) (rnd : Nat → Nat) (junk mem : WMem) (d : Mag), junk.length = dataLen M N / 4 ∧
      InitFile M N rnd junk (some mem) ∧ mapMem mem = .ok d ∧ ∀ hash, target d hash = .ok 0 := by
  refine ⟨3, 1, fun _ => 0, List.replicate 13 7, [3, 1, 52, 0, 0, 0, 0, 0, 0, 0, 0, 0, 0],
    ⟨3, 1, [0, 0, 0], [[0, 0, 0]], [0]⟩, by decide, .storing 16 _ (by decide), by decide, ?_⟩
  intro hash
  have : hash % 3 = 0 ∨ hash % 3 = 1 ∨ hash % 3 = 2 := by omega
  unfold target
  rcases this with h | h | h <;> simp [h]

/-- **C08** is false: if `init` dies while the file is being written (or the disk is full), the mapped file is too short and the
tables are read outside of it. -/
theorem C08_crash_short_file :
    ∃ (M N : Nat) (rnd : Nat → Nat) (junk mem : WMem), junk.length = dataLen M N / 4 ∧
      InitFile M N rnd junk (some mem) ∧ mapMem mem = .ub := by
  refine ⟨3, 1, fun _ => 0, List.replicate 13 7, _, by decide, .writing 1 (by decide), by decide⟩

end Nfqlb.Props
