import Verif.Proof.MaglevRace
import Verif.Props.Maglev

/-! Property C07: a packet handled while the tables are being rewritten. -/

set_option autoImplicit false

namespace Nfqlb.Props

open Nfqlb.Maglev Nfqlb.Spec

/-- A table reached by `init` and some commands. -/
def Reachable (d : Mag) : Prop :=
  ∃ M N rnd cs d₀, M < 2 ^ 32 ∧ cmdInit M N rnd = .ok d₀ ∧ runCmds d₀ cs = .ok d

theorem Reachable.inv {d : Mag} (h : Reachable d) : MagInv d := by
  obtain ⟨M, N, rnd, cs, d₀, hM, hd, hd'⟩ := h
  obtain ⟨p, hp, hpp, h3, hle, hNp, hinit, hdM⟩ := cmdInit_eq hM hd
  obtain ⟨hinv, _⟩ := init_inv (by omega) hinit
  exact (runCmds_inv cs hinv hd').1

theorem demo_reachable : Reachable (demoWith [0, 0, 2, 2, 2, 0, 0] [5, -1, 7]) :=
  ⟨7, 3, demoRnd, [.activate [5], .activateAt 2 (some 7)], demo, by decide, demo_init, by decide +kernel⟩

/-- **C07** The list of individual stores really is what the command does: performing all of them gives the table that
the command leaves behind.  (So the theorems below are about all intermediate states of the command.) -/
theorem C07_stores_faithful (d d' : Mag) (c : Cmd) (hr : Reachable d) (h : runCmd d c = .ok d') :
    ∃ ss, cmdStores d c = .ok ss ∧ applyStores d ss = d' := by
  obtain ⟨ss, h1, h2, _⟩ := (cmdStores_spec hr.inv c).2 d' h
  exact ⟨ss, h1, h2⟩

/-- **C07** (`lb`, `flowlb`) While a command runs on any reachable table, a packet handler that reads `lookup` when `t1`
of the command's stores have been made and `active` when `t2` have been made, gets "no target" (a negative number) or a
fwmark that was active before or is active after the command; it reads only inside the arrays.
(`t1`, `t2` are arbitrary, in any order, so the handler's two loads may even be reordered.) -/
theorem C07_race_safe (d d' : Mag) (c : Cmd) (hr : Reachable d) (h : runCmd d c = .ok d')
    (ss : List Store) (hss : cmdStores d c = .ok ss) (t1 t2 hash : Nat) :
    ∃ fw, raceTarget d ss t1 t2 hash = .ok fw ∧
      (fw < 0 ∨ fw ∈ activeMarks d.active ∨ fw ∈ activeMarks d'.active) := by
  obtain ⟨ss', h1, _, h3⟩ := (cmdStores_spec hr.inv c).2 d' h
  rw [hss] at h1
  injection h1 with h1
  subst h1
  exact raceTarget_safe hr.inv h3 t1 t2 hash

/-- The hypotheses are met by a command that rewrites the whole table. -/
example : ∃ d d' ss, Reachable d ∧ runCmd d (.activate [9]) = .ok d' ∧ cmdStores d (.activate [9]) = .ok ss ∧
    ss.length = 15 :=
  ⟨_, demoWith [0, 0, 1, 2, 2, 0, 1] [5, 9, 7],
    [(.active 1, 9), (.lookup 0, -1), (.lookup 1, -1), (.lookup 2, -1), (.lookup 3, -1), (.lookup 4, -1), (.lookup 5, -1), (.lookup 6, -1),
     (.lookup 1, 0), (.lookup 6, 1), (.lookup 4, 2), (.lookup 0, 0), (.lookup 2, 1), (.lookup 3, 2), (.lookup 5, 0)],
    demo_reachable, by decide +kernel, by decide +kernel, rfl⟩

/-- **C07** The same for a handler that is so slow that a whole history of commands runs meanwhile: the fwmark was
active at some time during that history. -/
theorem C07_history_race_safe (d d' : Mag) (cs : List Cmd) (hr : Reachable d) (h : runCmds d cs = .ok d') :
    ∃ ss, historyStores d cs = .ok ss ∧ applyStores d ss = d' ∧ ∀ t1 t2 hash,
      ∃ fw, raceTarget d ss t1 t2 hash = .ok fw ∧
        (fw < 0 ∨ ∃ e ∈ stages d cs, fw ∈ activeMarks e.active) := by
  obtain ⟨ss, h1, h2, h3⟩ := historyStores_spec cs hr.inv h
  refine ⟨ss, h1, h2, ?_⟩
  intro t1 t2 hash
  obtain ⟨fw, e1, e2⟩ := raceTarget_safe hr.inv h3 t1 t2 hash
  refine ⟨fw, e1, ?_⟩
  rcases e2 with e2 | e2 | e2
  · exact Or.inl e2
  · exact Or.inr ⟨d, stages_head cs d, e2⟩
  · exact Or.inr e2

example : ∃ d d', Reachable d ∧ runCmds d [.activate [9], .deactivate [5]] = .ok d' :=
  ⟨_, demoWith [2, 1, 1, 2, 2, 1, 1] [-1, 9, 7], demo_reachable, by decide +kernel⟩

/-- **C07** (`xlb`) While nothing is being changed the `FW` macro of `xlb` agrees with `lb`. -/
theorem C07_xlb_quiescent (d : Mag) (hr : Reachable d) (hash : Nat) :
    raceTargetXlb d [] 0 0 0 hash = target d hash := by
  have hd := hr.inv
  have hM := hd.mpos
  have hlt := Nat.mod_lt hash hM
  obtain ⟨⟨h1, h2⟩, _⟩ := hd.good
  have happ : applyStores d ([].take 0) = d := rfl
  unfold raceTargetXlb target
  have hM0 : ¬ d.M = 0 := by omega
  simp only [happ, hM0, if_false]
  by_cases ha : ∃ i, ActiveAt d.active i
  · obtain ⟨_, hf⟩ := h1 ha
    obtain ⟨i, hi, _⟩ := hf 0 hM
    obtain ⟨j, hj, _⟩ := hf _ hlt
    rw [hi, hj]
    simp only
    rw [if_neg (by omega), if_neg (by omega), if_pos (by omega)]
    simp only [Int.toNat_natCast]
    cases d.active[j]? <;> rfl
  · obtain ⟨_, hf⟩ := h2 ha
    rw [hf 0 hM, hf _ hlt]
    rfl

example (hash : Nat) : raceTargetXlb (demoWith [0, 0, 2, 2, 2, 0, 0] [5, -1, 7]) [] 0 0 0 hash =
    target (demoWith [0, 0, 2, 2, 2, 0, 0] [5, -1, 7]) hash := C07_xlb_quiescent _ demo_reachable hash

/-- **C07** is false for the extension `xlb`: the macro tests `lookup[0]` and then uses another slot, which a concurrent
`activate` may have cleared in between; then `active[-1]` is read. -/
theorem C07_xlb_race_fails :
    ∃ d d' ss t hash, Reachable d ∧ runCmd d (.activate [9]) = .ok d' ∧ cmdStores d (.activate [9]) = .ok ss ∧
      raceTargetXlb d ss 0 t t hash = .ub :=
  ⟨demoWith [0, 0, 2, 2, 2, 0, 0] [5, -1, 7], demoWith [0, 0, 1, 2, 2, 0, 1] [5, 9, 7],
    [(.active 1, 9), (.lookup 0, -1), (.lookup 1, -1), (.lookup 2, -1), (.lookup 3, -1), (.lookup 4, -1), (.lookup 5, -1), (.lookup 6, -1),
     (.lookup 1, 0), (.lookup 6, 1), (.lookup 4, 2), (.lookup 0, 0), (.lookup 2, 1), (.lookup 3, 2), (.lookup 5, 0)], 8, 3,
    demo_reachable, by decide +kernel, by decide +kernel, by decide +kernel⟩

end Nfqlb.Props
