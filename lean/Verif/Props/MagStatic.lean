import Verif.Proof.MagStatic
import Verif.Spec.MagStatic
import Mathlib.Tactic.NormNum.Prime

/-! Property C83: the tables in arrays of fixed size (`lib/maglev.c`). -/

set_option autoImplicit false

namespace Nfqlb.Props

open Nfqlb.MagStatic Nfqlb.Spec

theorem activeTarget_iff {n : Nat} {active : List Nat} (hn : n ≤ active.length) (i : Nat) :
    ActiveAt (marks n active) i ↔ ActiveTarget n active i := by
  constructor
  · rintro ⟨fw, h, h0⟩
    have hi : i < n := by
      rcases Nat.lt_or_ge i (marks n active).length with h' | h'
      · rwa [marks_length hn] at h'
      · rw [List.getElem?_eq_none h'] at h; simp at h
    have hl : i < active.length := by omega
    rw [marks_get hi (List.getElem?_eq_getElem hl)] at h
    injection h with h
    refine ⟨hi, active[i], List.getElem?_eq_getElem hl, ?_⟩
    intro hz
    rw [if_pos hz] at h
    omega
  · rintro ⟨hi, a, ha, hz⟩
    refine ⟨(a : Int), ?_, by omega⟩
    rw [marks_get hi ha, if_neg hz]

/-- The rows are permutations also for the prime 2. -/
theorem static_rows {p n : Nat} {rnd : Nat → Nat} (hp : Nat.Prime p) (hle : p ≤ 65536) (i : Nat) (hi : i < n) :
    ∃ row, ((List.range n).map (Maglev.randRow p rnd))[i]? = some row ∧ IsPermutationRow p row := by
  have h2 := hp.two_le
  refine ⟨Maglev.randRow p rnd i, by simp [hi], ?_⟩
  unfold Maglev.randRow
  refine Maglev.permRow_isPermutation hp hle (Nat.mod_lt _ (by omega)) (by omega) ?_
  have := Nat.mod_lt (rnd (2 * i + 1)) (show 0 < p - 1 by omega)
  omega

/-- **C83** Whatever the limits `MAX_M` and `MAX_N` are and whatever `rand()` delivers: for a prime `p` up to `MAX_M` (and 65536)
and up to `MAX_N` targets `initMagData` keeps in its arrays, no target is active, and the first `p` numbers of the row of each target are
a permutation of `0..p-1`. -/
theorem C83_init (MM NN p n : Nat) (rnd : Nat → Nat) (hp : Nat.Prime p) (hle : p ≤ 65536) (hM : p ≤ MM) (hN : n ≤ NN) :
    ∃ d, initMagData MM NN p n rnd = .ok d ∧ d.M = p ∧ d.N = n ∧ d.lookup.length = MM ∧ d.active.length = NN ∧
      (∀ i, ¬ ActiveTarget n d.active i) ∧
      ∀ i, i < n → ∃ row, d.perm[i]? = some row ∧ row.length = MM ∧ IsPermutationRow p (row.take p) := by
  refine ⟨_, init_eq hp.two_le hM hN rnd, rfl, rfl, by simp, by simp, ?_, ?_⟩
  · rintro i ⟨_, a, ha, hz⟩
    rw [List.getElem?_replicate] at ha
    split at ha
    · injection ha with ha; exact hz ha.symm
    · simp at ha
  · intro i hi
    obtain ⟨row, hr, hperm⟩ := static_rows (rnd := rnd) hp hle i hi
    obtain ⟨ys, hys⟩ := wideRows_init (MM := MM) (NN := NN) i row hr
    have hrl : row.length = p := by
      have := hperm.length_eq
      simpa using this
    have hy : row = Maglev.randRow p rnd i := by
      simp [hi] at hr; exact hr.symm
    refine ⟨Maglev.randRow p rnd i ++ List.replicate (MM - p) 0, ?_, ?_, ?_⟩
    · unfold widePerm
      rw [List.getElem?_append_left (by simpa using hi), List.getElem?_map, List.getElem?_range hi]
      rfl
    · rw [List.length_append, ← hy, hrl, List.length_replicate]; omega
    · rw [← hy, List.take_left' hrl]; exact hperm

/-- **C83** After `initMagData`, with whatever targets are active and whatever an earlier `populate` left in the table, `populate`
ends without undefined behaviour and changes nothing but the first `p` slots of `lookup`.  If a target is active then
each of them is the index of an active target, and two active targets have the same number of slots or differ by one; if
none is active all are -1. -/
theorem C83_populate (MM NN p n : Nat) (rnd : Nat → Nat) (hp : Nat.Prime p) (hle : p ≤ 65536) (hM : p ≤ MM) (hN : n ≤ NN)
    (d : MagS) (hd : initMagData MM NN p n rnd = .ok d)
    (active : List Nat) (ha : active.length = NN) (old : List Int) (ho : old.length = MM) :
    ∃ l, populate NN { d with active := active, lookup := old } = .ok { d with active := active, lookup := l } ∧
      l.length = MM ∧ l.drop p = old.drop p ∧
      ((∃ i, ActiveTarget n active i) →
        ∀ c, c < p → ∃ i : Nat, l[c]? = some (i : Int) ∧ ActiveTarget n active i) ∧
      ((¬ ∃ i, ActiveTarget n active i) → ∀ c, c < p → l[c]? = some (-1)) ∧
      ∀ i j, ActiveTarget n active i → ActiveTarget n active j → share p l i ≤ share p l j + 1 := by
  rw [init_eq hp.two_le hM hN rnd] at hd
  injection hd with hd
  subst hd
  have hna : n ≤ active.length := by omega
  obtain ⟨l, hl, hgood, hbal⟩ := Maglev.populateLookup_ok (M := p) (N := n)
    (perm := (List.range n).map (Maglev.randRow p rnd)) (active := marks n active)
    (by have := hp.two_le; omega) ⟨fun i hi => static_rows hp hle i hi, marks_length hna⟩
  have hiff := activeTarget_iff hna
  have hex : (∃ i, ActiveAt (marks n active) i) ↔ ∃ i, ActiveTarget n active i :=
    ⟨fun ⟨i, h⟩ => ⟨i, (hiff i).1 h⟩, fun ⟨i, h⟩ => ⟨i, (hiff i).2 h⟩⟩
  have hll : l.length = p := by
    by_cases he : ∃ i, ActiveAt (marks n active) i
    · exact (hgood.1 he).1
    · exact (hgood.2 he).1
  have ht := table_wide (MM := MM) (NN := NN)
    (d := { M := p, N := n, lookup := old, perm := widePerm MM NN p n rnd, active := active })
    ⟨hM, hN, ho, ha⟩ wideRows_init hl
  refine ⟨l ++ old.drop p, ?_, ?_, ?_, ?_, ?_, ?_⟩
  · unfold populate
    rw [ht]
  · rw [List.length_append, hll, List.length_drop]; omega
  · rw [List.drop_left' hll]
  · intro he c hc
    obtain ⟨i, h1, h2⟩ := (hgood.1 (hex.2 he)).2 c hc
    exact ⟨i, by rw [List.getElem?_append_left (by omega)]; exact h1, (hiff i).1 h2⟩
  · intro he c hc
    rw [List.getElem?_append_left (by omega)]
    exact (hgood.2 (fun h => he (hex.1 h))).2 c hc
  · intro i j hi hj
    have := hbal i j ((hiff i).2 hi) ((hiff j).2 hj)
    unfold share
    rw [List.take_left' hll]
    exact this

/-- **C83** The two variants agree: with the same random numbers and the same targets active the first `p` slots are those that
`magDataDyn_populate` computes. -/
theorem C83_same (MM NN p n : Nat) (rnd : Nat → Nat) (hp : Nat.Prime p) (h3 : 3 ≤ p) (hle : p ≤ 65536) (hM : p ≤ MM)
    (hN : n ≤ NN) (d : MagS) (hd : initMagData MM NN p n rnd = .ok d)
    (e : Maglev.Mag) (he : Maglev.init p n rnd = .ok e)
    (active : List Nat) (ha : active.length = NN) (fws : List Int) (hf : fws.length = n)
    (hsame : ∀ i, ActiveTarget n active i ↔ ActiveAt fws i) :
    ∃ d' e', populate NN { d with active := active } = .ok d' ∧ Maglev.populate { e with active := fws } = .ok e' ∧
      d'.lookup.take p = e'.lookup := by
  obtain ⟨_, heN, heM, heperm, _⟩ := Maglev.init_inv (by omega) he
  have heM : e.M = p := by
    rw [Maglev.adjustM_idem hp h3 (by omega)] at heM
    injection heM with heM; exact heM.symm
  rw [init_eq hp.two_le hM hN rnd] at hd
  injection hd with hd
  subst hd
  have hna : n ≤ active.length := by omega
  obtain ⟨l, hl, hgood, _⟩ := Maglev.populateLookup_ok (M := p) (N := n)
    (perm := (List.range n).map (Maglev.randRow p rnd)) (active := marks n active)
    (by have := hp.two_le; omega) ⟨fun i hi => static_rows hp hle i hi, marks_length hna⟩
  have hll : l.length = p := by
    by_cases he : ∃ i, ActiveAt (marks n active) i
    · exact (hgood.1 he).1
    · exact (hgood.2 he).1
  have ht := table_wide (MM := MM) (NN := NN)
    (d := { M := p, N := n, lookup := List.replicate MM 0, perm := widePerm MM NN p n rnd, active := active })
    ⟨hM, hN, by simp, ha⟩ wideRows_init hl
  have hcong : Maglev.populateLookup p n ((List.range n).map (Maglev.randRow p rnd)) fws = .ok l := by
    rw [← hl]
    refine Maglev.populateLookup_congr (by rw [hf, marks_length hna]) (fun i => ?_)
    rw [activeTarget_iff hna]; exact (hsame i).symm
  refine ⟨_, { e with active := fws, lookup := l }, by unfold populate; rw [ht], ?_, ?_⟩
  · unfold Maglev.populate
    simp only [heM, heN]
    rw [heperm, heM, hcong]
  · show (l ++ _).take p = l
    rw [List.take_left' hll]

/-- The hypotheses are met with the default limits: 997 slots, 3 targets of which two are active. -/
example : Nat.Prime 997 ∧ 3 ≤ 997 ∧ 997 ≤ 65536 ∧ 997 ≤ MAX_M ∧ 3 ≤ MAX_N ∧
    (∃ d, initMagData MAX_M MAX_N 997 3 (fun k => 31 * k) = .ok d) ∧
    (∃ e, Maglev.init 997 3 (fun k => 31 * k) = .ok e) ∧
    (7 :: 0 :: 9 :: List.replicate 97 0).length = MAX_N ∧
    (∀ i, ActiveTarget 3 (7 :: 0 :: 9 :: List.replicate 97 0) i ↔ ActiveAt [700, -1, 900] i) := by
  have hp : Nat.Prime 997 := by norm_num
  refine ⟨hp, by decide, by decide, by decide, by decide, ?_, Maglev.init_ok 997 3 _ (by decide), by decide, ?_⟩
  · obtain ⟨d, hd, _⟩ := C83_init MAX_M MAX_N 997 3 (fun k => 31 * k) hp (by decide) (by decide) (by decide)
    exact ⟨d, hd⟩
  · intro i
    match i with
    | 0 => exact ⟨fun _ => ⟨700, rfl, by decide⟩, fun _ => ⟨by decide, 7, rfl, by decide⟩⟩
    | 1 =>
      refine ⟨fun ⟨_, a, h, hz⟩ => ?_, fun ⟨fw, h, h0⟩ => ?_⟩
      · injection h with h; exact absurd h.symm hz
      · injection h with h; omega
    | 2 => exact ⟨fun _ => ⟨900, rfl, by decide⟩, fun _ => ⟨by decide, 9, rfl, by decide⟩⟩
    | i + 3 =>
      refine ⟨fun ⟨h, _⟩ => by omega, fun ⟨fw, h, _⟩ => ?_⟩
      simp at h

/-- The table of the next example. -/
def smallStatic : MagS where
  M := 7
  N := 3
  lookup := List.replicate 9 0
  perm := [[1, 4, 0, 3, 6, 2, 5, 0, 0], [3, 1, 6, 4, 2, 0, 5, 0, 0], [5, 6, 0, 1, 2, 3, 4, 0, 0], [0, 0, 0, 0, 0, 0, 0, 0, 0]]
  active := [0, 0, 0, 0]

/-- A small table: 7 slots in arrays of 9, 3 targets in arrays of 4, the first and the third active. -/
example : initMagData 9 4 7 3 (fun k => k + 1) = .ok smallStatic ∧
    populate 4 { smallStatic with active := [5, 0, 6, 0] } =
      .ok { smallStatic with active := [5, 0, 6, 0], lookup := [0, 0, 2, 0, 0, 2, 2, 0, 0] } := by decide +kernel

/-- **C83** `initMagData` checks nothing.  It is free of undefined behaviour exactly when there is no target, or the table has
at least two slots and both numbers are in the limits of the arrays (with one slot `rand() % (M - 1)` divides by zero). -/
theorem C83_limits (MM NN m n : Nat) (rnd : Nat → Nat) :
    (initMagData MM NN m n rnd = .ub ↔ n ≠ 0 ∧ (m < 2 ∨ MM < m ∨ NN < n)) ∧
      initMagData MM NN m n rnd ≠ .die ∧ initMagData MM NN m n rnd ≠ .hang := by
  obtain ⟨h1, h2⟩ := init_defined MM NN m n rnd
  rcases h2 with h2 | h2
  · have h3 := h1.1 h2
    obtain ⟨d, hd⟩ := h2
    rw [hd]
    refine ⟨⟨fun h => by simp at h, fun h => ?_⟩, by simp, by simp⟩
    rcases h3 with h3 | h3
    · exact absurd h3 h.1
    · omega
  · rw [h2]
    refine ⟨⟨fun _ => ?_, fun _ => rfl⟩, by simp, by simp⟩
    by_contra hc
    have : n = 0 ∨ (2 ≤ m ∧ m ≤ MM ∧ n ≤ NN) := by omega
    obtain ⟨d, hd⟩ := h1.2 this
    rw [h2] at hd
    simp at hd

/-- **C83** needs a prime: with 4 slots, one target and an even skip the row is 0, 2, 0, 2 and then the zeros of the rest of the array,
and `populate` reads on until it is outside of the array (the default limits, draws that `rand()` can deliver). -/
theorem C83_not_prime : ∃ d, initMagData MAX_M MAX_N 4 1 (fun k => k) = .ok d ∧
    populate MAX_N { d with active := 1 :: List.replicate 99 0 } = .ub := by
  refine ⟨_, init_eq (by decide) (by decide) (by decide) _, ?_⟩
  decide +kernel

end Nfqlb.Props
