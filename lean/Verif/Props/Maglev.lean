import Verif.Proof.MaglevSet
import Mathlib.Tactic.NormNum.Prime

/-! Properties C02, C03, C04, C05: the Maglev table under any history of configuration commands. -/

set_option autoImplicit false

namespace Nfqlb.Props

open Nfqlb.Maglev Nfqlb.Spec

/-- Random draws used to show that the hypotheses can be met. -/
def demoRnd : Nat → Nat := fun k => 1804289383 + 7 * k * k

/-- The table that `init` makes from them for M = 7, N = 3. -/
def demo : Mag := ⟨7, 3, [-1, -1, -1, -1, -1, -1, -1],
  [[1, 4, 0, 3, 6, 2, 5], [1, 6, 4, 2, 0, 5, 3], [1, 4, 0, 3, 6, 2, 5]], [-1, -1, -1]⟩

/-- `demo` with some targets activated. -/
def demoWith (lookup active : List Int) : Mag := { demo with lookup := lookup, active := active }

theorem demo_init : cmdInit 7 3 demoRnd = .ok demo := by decide +kernel

/-! ### C02 -/

/-- **C02** (partial: `M ≤ 65536`).  Whatever `rand()` delivers, `init` with any `M ≤ 65536` and an `N` that is not
refused succeeds, every later history of configuration commands (with or without `--index`, with good
or bad indices) runs without undefined behaviour and terminates, and afterwards: with at least one
active target every slot holds the index of an active target, with none every slot is -1.
Missing: the same for `M > 65536`, where it is false (`C02_large_table_fails`). -/
theorem C02_every_slot_active_partial (M N : Nat) (rnd : Nat → Nat) (cs : List Cmd)
    (hM : M ≤ 65536) (hN : cmdInit M N rnd ≠ .die) :
    ∃ d d', cmdInit M N rnd = .ok d ∧ runCmds d cs = .ok d' ∧
      d'.N = N ∧ d'.active.length = N ∧ GoodTable d'.M d'.lookup d'.active := by
  have hok : ∃ d, cmdInit M N rnd = .ok d := by
    obtain ⟨p, hp, hpp, h3, hle, _⟩ := adjustM_ok M (by omega)
    unfold cmdInit at hN ⊢
    rw [hp] at hN ⊢
    simp only at hN ⊢
    split
    · rename_i hgt; rw [if_pos hgt] at hN; exact absurd rfl hN
    · exact init_ok p N rnd (by omega)
  obtain ⟨d, hd⟩ := hok
  obtain ⟨p, hp, hpp, h3, hle, hNp, hinit, hdM⟩ := cmdInit_eq (by omega) hd
  obtain ⟨q, hq, _, _, _, _, hpm⟩ := adjustM_ok M (by omega)
  have hpq : p = q := by rw [hp] at hq; injection hq
  subst hpq
  obtain ⟨hinv, hdN, _, hperm, _⟩ := init_inv (by omega) hinit
  have hrows : ∀ i, i < d.N → ∃ row, d.perm[i]? = some row ∧ IsPermutationRow d.M row := by
    intro i hi
    rw [hperm, hdM]
    exact init_rows hpp h3 (by omega) i (by omega)
  obtain ⟨d', hd'⟩ := runCmds_ok cs hinv hrows
  obtain ⟨hinv', h1, h2, h4⟩ := runCmds_inv cs hinv hd'
  exact ⟨d, d', hd, hd', by omega, by rw [hinv'.alen]; omega, hinv'.good.1⟩

/-- The hypotheses are met by a small table, any number of commands of all kinds. -/
example : ∃ d d', cmdInit 7 3 demoRnd = .ok d ∧
    runCmds d [.activate [5, 6], .activateAt 2 (some 7), .deactivateAt 9, .deactivate [5], .deactivateAt 0] = .ok d' ∧
      d'.N = 3 ∧ d'.active.length = 3 ∧ GoodTable d'.M d'.lookup d'.active :=
  C02_every_slot_active_partial 7 3 demoRnd _ (by decide) (by decide +kernel)

/-- **C02** For every table size accepted by `init` (also large ones): if the commands ran without undefined
behaviour then the table is as it should be. -/
theorem C02_table_good_if_defined (M N : Nat) (rnd : Nat → Nat) (cs : List Cmd) (d d' : Mag)
    (hM : M < 2 ^ 32) (hd : cmdInit M N rnd = .ok d) (hd' : runCmds d cs = .ok d') :
    GoodTable d'.M d'.lookup d'.active := by
  obtain ⟨p, hp, hpp, h3, hle, hNp, hinit, hdM⟩ := cmdInit_eq hM hd
  obtain ⟨hinv, _⟩ := init_inv (by omega) hinit
  exact (runCmds_inv cs hinv hd').1.good.1

/-- The draws of the witness for `C02_large_table_fails`: offset 0, skip 65536. -/
def badRnd : Nat → Nat := fun k => if k = 1 then 65535 else 0

/-- **C02** is false for large tables: with `M = 65537` (a prime that `init` accepts) and a draw that
`rand()` can deliver, activating the first target makes `magDataDyn_populate` read outside the
permutation row.  Reason: `offset + j * skip` is computed in 32 bit, the row repeats its first element and so
misses another one. -/
theorem C02_large_table_fails :
    ∃ d, cmdInit 65537 1 badRnd = .ok d ∧ d.M = 65537 ∧ d.N = 1 ∧
      runCmd d (.activate [1]) = .ub := by
  have hpr : Nat.Prime 65537 := by norm_num
  have hadj : adjustM 65537 = .ok 65537 := adjustM_idem hpr (by omega) (by omega)
  have hc : cmdInit 65537 1 badRnd = init 65537 1 badRnd := by
    unfold cmdInit; rw [hadj]; rfl
  obtain ⟨d, hd⟩ := init_ok 65537 1 badRnd (by omega)
  obtain ⟨hinv, hdN, hdM, hperm, hact⟩ := init_inv (by omega) hd
  rw [hadj] at hdM
  have hdM' : d.M = 65537 := by injection hdM with h; exact h.symm
  refine ⟨d, by rw [hc, hd], hdM', hdN, ?_⟩
  have hrun : runCmd d (.activate [1]) = populate { d with active := [1] } := by
    simp only [runCmd, forEach, hact]
    rfl
  rw [hrun]
  rcases populateLookup_res (M := d.M) (N := 1) (active := [1]) d.perm hinv.mpos rfl with h | ⟨l, h, _, _, hcov⟩
  · unfold populate; simp only [hdN]; rw [h]
  · exfalso
    have hcov' := hcov ⟨0, 1, rfl, by omega⟩
    rw [hperm, hdM'] at hcov'
    have hall : ∀ c, c < 65537 → c ∈ randRow 65537 badRnd 0 := by
      intro c hc
      obtain ⟨k, row, hk, hm⟩ := hcov' c hc
      have : k = 0 := by
        rcases Nat.eq_zero_or_pos k with h | h
        · exact h
        · rw [List.getElem?_eq_none (by simp; omega)] at hk; simp at hk
      subst this
      simp at hk
      rw [hk]; exact hm
    have hnd := row_covers_nodup (row := randRow 65537 badRnd 0) (by simp [randRow, permRow]) hall
    have hlen : (randRow 65537 badRnd 0).length = 65537 := by simp [randRow, permRow]
    have h0 : (randRow 65537 badRnd 0)[0]? = some 0 := by
      simp [randRow, permRow, badRnd, u32]
    have h1 : (randRow 65537 badRnd 0)[65536]? = some 0 := by
      simp [randRow, permRow, badRnd, u32]
    have := (List.nodup_iff_getElem?_ne_getElem?.1 hnd) 0 65536 (by omega) (by omega)
    rw [h0, h1] at this
    exact this rfl

/-! ### C03 -/

/-- **C03** After `init` and any history of commands (that ran without undefined behaviour) any two
active targets own numbers of slots that differ by at most one, and with `k` active targets each owns
`⌊M/k⌋` or `⌈M/k⌉` of the `M` slots. -/
theorem C03_load_even (M N : Nat) (rnd : Nat → Nat) (cs : List Cmd) (d d' : Mag)
    (hM : M < 2 ^ 32) (hd : cmdInit M N rnd = .ok d) (hd' : runCmds d cs = .ok d')
    (i j : Nat) (hi : ActiveAt d'.active i) (hj : ActiveAt d'.active j) :
    slots d'.lookup i ≤ slots d'.lookup j + 1 ∧
    (slots d'.lookup i = d'.M / (activeIdx d'.active).card ∨
     slots d'.lookup i = (d'.M + (activeIdx d'.active).card - 1) / (activeIdx d'.active).card) := by
  obtain ⟨p, hp, hpp, h3, hle, hNp, hinit, hdM⟩ := cmdInit_eq hM hd
  obtain ⟨hinv, _⟩ := init_inv (by omega) hinit
  obtain ⟨⟨hfull, _⟩, hbal⟩ := (runCmds_inv cs hinv hd').1.good
  exact ⟨hbal i j hi hj, slots_exact (hfull ⟨i, hi⟩) hbal hi⟩

/-- **C03** Every active target gets some load: it owns at least one slot (since `init` refuses `N > M`). -/
theorem C03_every_active_target_used (M N : Nat) (rnd : Nat → Nat) (cs : List Cmd) (d d' : Mag)
    (hM : M < 2 ^ 32) (hd : cmdInit M N rnd = .ok d) (hd' : runCmds d cs = .ok d')
    (i : Nat) (hi : ActiveAt d'.active i) : 1 ≤ slots d'.lookup i := by
  obtain ⟨p, hp, hpp, h3, hle, hNp, hinit, hdM⟩ := cmdInit_eq hM hd
  obtain ⟨hinv, hN, _⟩ := init_inv (by omega) hinit
  obtain ⟨hinv', hM', hN', _⟩ := runCmds_inv cs hinv hd'
  have hcard : (activeIdx d'.active).card ≤ d'.M := by
    have h1 : (activeIdx d'.active).card ≤ d'.active.length := by
      unfold activeIdx
      exact (Finset.card_filter_le _ _).trans (by simp)
    rw [hinv'.alen] at h1
    omega
  have hpos : 0 < (activeIdx d'.active).card := Finset.card_pos.2 ⟨i, mem_activeIdx.2 hi⟩
  rcases (C03_load_even M N rnd cs d d' hM hd hd' i i hi hi).2 with h | h <;> rw [h]
  · exact Nat.div_pos hcard hpos
  · exact Nat.div_pos (by omega) hpos

/-- A table with two active targets exists, for which the above says: 4 and 3 of 7 slots. -/
example : ∃ d d', cmdInit 7 3 demoRnd = .ok d ∧ runCmds d [.activate [5], .activateAt 2 (some 7)] = .ok d' ∧
    ActiveAt d'.active 0 ∧ ActiveAt d'.active 2 ∧ slots d'.lookup 0 = 4 ∧ slots d'.lookup 2 = 3 := by
  refine ⟨demo, demoWith [0, 0, 2, 2, 2, 0, 0] [5, -1, 7], demo_init, by decide +kernel,
    ⟨5, by decide +kernel, by decide⟩, ⟨7, by decide +kernel, by decide⟩, ?_, ?_⟩ <;> decide +kernel

/-! ### C04 -/

/-- **C04** Two load-balancers created with the same `M`, `N` and the same random sequence, after any two histories
of commands that end with the same indices being active, have the same lookup table: every packet hash
is mapped to the same index, whatever the order of the commands and the fwmarks used. -/
theorem C04_history_independent (M N : Nat) (rnd : Nat → Nat) (cs₁ cs₂ : List Cmd) (d d₁ d₂ : Mag)
    (hM : M < 2 ^ 32) (hd : cmdInit M N rnd = .ok d)
    (h₁ : runCmds d cs₁ = .ok d₁) (h₂ : runCmds d cs₂ = .ok d₂)
    (hsame : ∀ i, ActiveAt d₁.active i ↔ ActiveAt d₂.active i) :
    d₁.lookup = d₂.lookup := by
  obtain ⟨p, hp, hpp, h3, hle, hNp, hinit, hdM⟩ := cmdInit_eq hM hd
  obtain ⟨hinv, _⟩ := init_inv (by omega) hinit
  obtain ⟨i1, m1, n1, p1⟩ := runCmds_inv cs₁ hinv h₁
  obtain ⟨i2, m2, n2, p2⟩ := runCmds_inv cs₂ hinv h₂
  have e1 := i1.populated
  have e2 := i2.populated
  rw [m1, n1, p1, populateLookup_congr (b := d₂.active) (by rw [i1.alen, i2.alen]; omega) hsame] at e1
  rw [m2, n2, p2, e1] at e2
  injection e2

/-- Two different histories meeting in the same active indices. -/
example : ∃ d d₁ d₂, cmdInit 7 3 demoRnd = .ok d ∧
    runCmds d [.activate [5, 6, 7], .deactivate [6]] = .ok d₁ ∧
    runCmds d [.activateAt 2 (some 1), .activate [9]] = .ok d₂ ∧
    (∀ i, ActiveAt d₁.active i ↔ ActiveAt d₂.active i) ∧ d₁.lookup = d₂.lookup := by
  refine ⟨demo, demoWith [0, 0, 2, 2, 2, 0, 0] [5, -1, 7], demoWith [0, 0, 2, 2, 2, 0, 0] [9, -1, 1],
    demo_init, by decide +kernel, by decide +kernel, ?_, by decide +kernel⟩
  intro i
  rw [← mem_activeIdx, ← mem_activeIdx]
  have : ∀ a b : Finset Nat, a = b → (i ∈ a ↔ i ∈ b) := by rintro a b rfl; rfl
  exact this _ _ (by decide +kernel)

/-! ### C05 -/

/-- **C05** For histories of commands given by fwmark (no `--index`) the active targets are exactly the set obtained by
inserting (as long as there is room) and removing fwmarks, and no fwmark ever occupies two slots.
(Partial: `--index` is excluded; with it the claim is false, `C05_deactivate_fails_with_index`.) -/
theorem C05_set_semantics_partial (M N : Nat) (rnd : Nat → Nat) (cs : List MarkCmd) (d d' : Mag)
    (hM : M < 2 ^ 32) (hd : cmdInit M N rnd = .ok d) (hd' : runCmds d (cs.map ofMark) = .ok d') :
    activeMarks d'.active = setRun N ∅ cs ∧ NoDuplicates d'.active := by
  obtain ⟨p, hp, hpp, h3, hle, hNp, hinit, hdM⟩ := cmdInit_eq hM hd
  obtain ⟨hinv, hN, _, _, hact⟩ := init_inv (by omega) hinit
  have hn : NoDuplicates d.active := by
    rw [hact]
    intro i j fw h0 hi _
    have := List.mem_of_getElem? hi
    rw [List.mem_replicate] at this
    omega
  have he : activeMarks d.active = ∅ := by
    rw [hact]
    ext x
    rw [mem_activeMarks]
    constructor
    · rintro ⟨h0, k, hk⟩
      have := List.mem_of_getElem? hk
      rw [List.mem_replicate] at this
      omega
    · intro h; simp at h
  obtain ⟨h1, h2⟩ := runCmds_set cs hinv hn hd'
  refine ⟨?_, h1⟩
  rw [h2, hN, he]

/-- **C05** After `deactivate fw` no packet is sent to `fw`, and exactly the other targets that were active
still are.  (Partial: for histories without `--index`.) -/
theorem C05_deactivate_removes_partial (M N : Nat) (rnd : Nat → Nat) (cs : List MarkCmd) (fw : Int)
    (d d₁ d₂ : Mag) (hM : M < 2 ^ 32) (hd : cmdInit M N rnd = .ok d) (hfw : 0 ≤ fw)
    (h₁ : runCmds d (cs.map ofMark) = .ok d₁) (h₂ : runCmd d₁ (.deactivate [fw]) = .ok d₂) :
    activeMarks d₂.active = (activeMarks d₁.active).erase fw ∧
    ∀ hash, ∃ t, target d₂ hash = .ok t ∧ t ≠ fw := by
  obtain ⟨p, hp, hpp, h3, hle, hNp, hinit, hdM⟩ := cmdInit_eq hM hd
  obtain ⟨hinv, hN, _, _, hact⟩ := init_inv (by omega) hinit
  have hnd := (C05_set_semantics_partial M N rnd cs d d₁ hM hd h₁).2
  have hinv₁ := (runCmds_inv _ hinv h₁).1
  have h₂' : runCmds d₁ ([MarkCmd.deactivate [fw]].map ofMark) = .ok d₂ := by
    simp only [List.map, ofMark, runCmds, h₂]
  obtain ⟨_, hset⟩ := runCmds_set _ hinv₁ hnd h₂'
  have hinv₂ := (runCmds_inv _ hinv₁ h₂').1
  have he : activeMarks d₂.active = (activeMarks d₁.active).erase fw := hset
  refine ⟨he, ?_⟩
  intro hash
  obtain ⟨t, ht, ha, hna⟩ := hinv₂.target_ok hash
  refine ⟨t, ht, ?_⟩
  by_cases h : ∃ i, ActiveAt d₂.active i
  · have := ha h
    rw [he] at this
    exact (Finset.mem_erase.1 this).1
  · have := hna h; omega

example : ∃ d d₁ d₂, cmdInit 7 3 demoRnd = .ok d ∧
    runCmds d ([MarkCmd.activate [5, 6, 5, 7, 8], MarkCmd.deactivate [6]].map ofMark) = .ok d₁ ∧
    runCmd d₁ (.deactivate [5]) = .ok d₂ ∧ d₂.active = [-1, -1, 7] := by
  refine ⟨demo, demoWith [0, 0, 2, 2, 2, 0, 0] [5, -1, 7], demoWith [2, 2, 2, 2, 2, 2, 2] [-1, -1, 7],
    demo_init, ?_, ?_, ?_⟩ <;> decide +kernel

/-- **C05** with `--index` the claim about `deactivate` is false: a fwmark activated in two slots stays active (and
gets packets) after it has been deactivated. -/
theorem C05_deactivate_fails_with_index :
    ∃ d d', cmdInit 7 3 demoRnd = .ok d ∧
      runCmds d [.activateAt 0 (some 5), .activateAt 1 (some 5), .deactivate [5]] = .ok d' ∧
      target d' 0 = .ok 5 := by
  refine ⟨demo, demoWith [1, 1, 1, 1, 1, 1, 1] [-1, 5, -1], demo_init, ?_, ?_⟩ <;> decide +kernel

/-- **C05** In any state: `activate fw` (no `--index`) of a target that is already active changes nothing at all. -/
theorem C05_activate_active_is_noop (d : Mag) (fw : Int) (h : fw ∈ d.active) :
    runCmd d (.activate [fw]) = .ok d := by
  simp only [runCmd, forEach, activateOne_eq, if_pos h]
  rfl

/-- **C05** In any state: `deactivate fw` of a target that is not active changes nothing at all. -/
theorem C05_deactivate_inactive_is_noop (d : Mag) (fw : Int) (h : fw ∉ d.active) :
    runCmd d (.deactivate [fw]) = .ok d := by
  have : d.active.findIdx? (fun a => decide (a = fw)) = none := by
    rw [List.findIdx?_eq_none_iff]
    intro x hx
    simp only [decide_eq_false_iff_not]
    rintro rfl; exact h hx
  simp only [runCmd, forEach, deactivateOne, this]
  rfl

/-- **C05** In any state with a free slot, `activate fw` makes `fw` active, and no slot that was in use
is touched. -/
theorem C05_activate_takes_effect (d d' : Mag) (fw : Int)
    (hfree : ∃ (i : Nat) (x : Int), d.active[i]? = some x ∧ x < 0)
    (h : runCmd d (.activate [fw]) = .ok d') :
    (∃ i : Nat, d'.active[i]? = some fw) ∧
    ∀ (i : Nat) (x : Int), d.active[i]? = some x → 0 ≤ x → d'.active[i]? = some x := by
  have hact : d'.active = (activateOne d.active fw).1 := by
    have := (runCmd_mark_active (.activate [fw]) h).2
    simpa [forEach] using this
  rw [hact, activateOne_eq]
  by_cases hm : fw ∈ d.active
  · rw [if_pos hm]; exact ⟨List.mem_iff_getElem?.1 hm, fun i x hx _ => hx⟩
  · rw [if_neg hm]
    cases hf : d.active.findIdx? (fun v => decide (v < 0)) with
    | none =>
      exfalso
      obtain ⟨i, x, hx, hneg⟩ := hfree
      rw [List.findIdx?_eq_none_iff] at hf
      have := hf x (List.mem_of_getElem? hx)
      simp at this; omega
    | some k =>
      obtain ⟨hk, hneg⟩ := findIdx_neg_some hf
      refine ⟨⟨k, by simp [hk]⟩, ?_⟩
      intro i x hx h0
      have : k ≠ i := by
        rintro rfl
        rw [List.getElem?_eq_getElem hk] at hx; injection hx; omega
      simp only
      rw [List.getElem?_set_ne this]; exact hx

/-- **C05** In any state, `deactivate fw` touches no slot that holds another fwmark. -/
theorem C05_deactivate_keeps_others (d d' : Mag) (fw : Int)
    (h : runCmd d (.deactivate [fw]) = .ok d') (i : Nat) (x : Int) (hx : d.active[i]? = some x) (hne : x ≠ fw) :
    d'.active[i]? = some x := by
  have hact : d'.active = (deactivateOne d.active fw).1 := by
    have := (runCmd_mark_active (.deactivate [fw]) h).2
    simpa [forEach] using this
  rw [hact]
  unfold deactivateOne
  split
  · rename_i k hk
    obtain ⟨hkl, h1, _⟩ := List.findIdx?_eq_some_iff_getElem.1 hk
    have : k ≠ i := by
      rintro rfl
      rw [List.getElem?_eq_getElem hkl] at hx; injection hx with hx
      exact hne (by rw [← hx]; simpa using h1)
    simp only
    rw [List.getElem?_set_ne this]; exact hx
  · exact hx

/-- A state in which the above apply (the table is partly filled, and has duplicates). -/
example : ∃ d d' d'', cmdInit 7 3 demoRnd = .ok d ∧
    runCmds d [.activateAt 0 (some 5), .activateAt 1 (some 5)] = .ok d' ∧
    runCmd d' (.activate [6]) = .ok d'' ∧ d''.active = [5, 5, 6] ∧
    (∃ (i : Nat) (x : Int), d'.active[i]? = some x ∧ x < 0) := by
  refine ⟨demo, demoWith [0, 0, 1, 0, 0, 1, 1] [5, 5, -1], demoWith [0, 0, 1, 2, 2, 0, 1] [5, 5, 6], demo_init,
    by decide +kernel, by decide +kernel, by decide +kernel, 2, -1, by decide +kernel, by decide⟩

/-- **C05** An `--index` that is negative or not below `N` is refused, for both commands (and by definition of `die`
nothing is written). -/
theorem C05_bad_index_refused (d : Mag) (i fw : Int) (h32 : -2147483648 ≤ i ∧ i < 2147483648)
    (hN : d.N ≤ 2147483648) (hbad : i < 0 ∨ (d.N : Int) ≤ i) :
    runCmd d (.activateAt i (some fw)) = .die ∧ runCmd d (.deactivateAt i) = .die := by
  have hc : cint i = i := by unfold cint; omega
  have hl : indexTooLarge i d.N = true := by
    unfold indexTooLarge
    rw [decide_eq_true_iff]
    omega
  constructor <;> simp only [runCmd, hc, hl, if_true]

example (d : Mag) (h : d.N = 4) : runCmd d (.activateAt 4 (some 1)) = .die ∧ runCmd d (.deactivateAt 4) = .die :=
  C05_bad_index_refused d 4 1 (by decide) (by omega) (by omega)

example (d : Mag) (h : d.N = 4) : runCmd d (.activateAt (-1) (some 1)) = .die ∧ runCmd d (.deactivateAt (-1)) = .die :=
  C05_bad_index_refused d (-1) 1 (by decide) (by omega) (by omega)

theorem cint_id {i : Nat} (h : i < 2147483648) : cint (i : Int) = (i : Int) := by unfold cint; omega

theorem populate_active {d d' : Mag} (h : populate d = .ok d') : d'.active = d.active := by
  unfold populate at h
  split at h
  · simp only [Res.ok.injEq] at h; rw [← h]
  all_goals simp at h

/-- **C05** In any state: `activate --index=i fw` with an index of the table puts `fw` in slot `i` and changes no other slot. -/
theorem C05_activate_at (d d' : Mag) (i : Nat) (fw : Int) (hi : i < d.N) (hN : d.N ≤ 2147483648)
    (h : runCmd d (.activateAt i (some fw)) = .ok d') :
    d'.active[i]? = some fw ∧ ∀ j, j ≠ i → d'.active[j]? = d.active[j]? := by
  simp only [runCmd] at h
  rw [cint_id (by omega), if_neg (by simp only [indexTooLarge, decide_eq_true_eq]; omega)] at h
  simp only [Int.toNat_natCast] at h
  cases ha : d.active[i]? with
  | none => rw [ha] at h; simp at h
  | some a =>
    rw [ha] at h
    have hlt := (List.getElem?_eq_some_iff.1 ha).1
    simp only at h
    split at h
    · rw [populate_active h]
      refine ⟨by simp [hlt], fun j hj => by rw [List.getElem?_set_ne (by omega)]⟩
    · rename_i hne
      simp only [Res.ok.injEq] at h
      subst h
      exact ⟨by rw [ha]; congr 1; exact not_not.1 hne, fun _ _ => rfl⟩

/-- **C05** In any state: `deactivate --index=i` with an index of the table makes slot `i` inactive and changes no other slot. -/
theorem C05_deactivate_at (d d' : Mag) (i : Nat) (hi : i < d.N) (hN : d.N ≤ 2147483648)
    (h : runCmd d (.deactivateAt i) = .ok d') :
    (∃ x, d'.active[i]? = some x ∧ x < 0) ∧ ∀ j, j ≠ i → d'.active[j]? = d.active[j]? := by
  simp only [runCmd] at h
  rw [cint_id (by omega), if_neg (by simp only [indexTooLarge, decide_eq_true_eq]; omega)] at h
  simp only [Int.toNat_natCast] at h
  cases ha : d.active[i]? with
  | none => rw [ha] at h; simp at h
  | some a =>
    rw [ha] at h
    have hlt := (List.getElem?_eq_some_iff.1 ha).1
    simp only at h
    split at h
    · rw [populate_active h]
      refine ⟨⟨-1, by simp [hlt], by omega⟩, fun j hj => by rw [List.getElem?_set_ne (by omega)]⟩
    · rename_i hne
      simp only [Res.ok.injEq] at h
      subst h
      exact ⟨⟨a, ha, by omega⟩, fun _ _ => rfl⟩

example : runCmd demo (.activateAt 1 (some 5)) = .ok (demoWith [1, 1, 1, 1, 1, 1, 1] [-1, 5, -1]) ∧
    runCmd (demoWith [1, 1, 1, 1, 1, 1, 1] [-1, 5, -1]) (.deactivateAt 1) = .ok demo := by decide +kernel

end Nfqlb.Props
