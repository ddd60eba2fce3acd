import Verif.Proof.FragDestroy

/-! C99: destroying a fragment table. -/

set_option autoImplicit false

namespace Nfqlb.Props

open Nfqlb Nfqlb.Frag Nfqlb.Spec.Frag

/-- Keys for the examples. -/
def ftKey99 (n : UInt8) : Key := { Key.zero with dst := List.replicate 15 0 ++ [n] }

/-- What the table holds at the end of a history. -/
theorem ft_at_end {hsize mb mf mtu t M : Nat} {reass : Bool} (hpos : 0 < hsize) {ops : List Op} (ht : Timed 0 ops) (hM : ∀ o ∈ ops, timeOf o ≤ M) :
    ∃ ft outs t', run (create hsize mb mf mtu t reass) ops = .ok (ft, outs) ∧ t' ≤ M ∧ FInv (u32 (hsize + mb)) mb mf (u32 (t * ms)) ft t' 0 := by
  obtain ⟨ft, outs, e1, -, i1, -, -⟩ := run_spec ops (create_finv (hsize := hsize) (mb := mb) (mf := mf) (mtu := mtu) (t := t) (reass := reass) hpos) ht
  exact ⟨ft, outs, _, e1, endTime_le ops 0 (Nat.zero_le _) hM, i1⟩

/-- C99 (partial): with a compiler that is told to wrap, after every history, and whatever is in the variable that is not initialised, destroying the table gives back every object, every buffer and every bucket that the pools had at the
start, and what was waiting counts as discarded, each fragment once. Missing: with the arithmetic of the C standard the call is undefined, see `C99_violated`; and the clock has to be a ttl before the end of 64 bits. -/
theorem C99_frees_partial (hsize maxBuckets maxFragments mtu t M : Nat) (reass : Bool) (hpos : 0 < hsize) (ops : List Op) (ht : Timed 0 ops) (hM : ∀ o ∈ ops, timeOf o ≤ M)
    (hlate : M + t * 1000000 % 4294967296 < 2 ^ 64 - 1) (nsec : Int) :
    ∃ ft outs ft', run (create hsize maxBuckets maxFragments mtu t reass) ops = .ok (ft, outs) ∧
      fragTableDestroy true false ((hsize + maxBuckets) % 4294967296) maxFragments maxBuckets nsec ft = .ok ft' ∧
      ft'.freeObjs.Perm (create hsize maxBuckets maxFragments mtu t reass).freeObjs ∧ ft'.fragsFree = maxFragments ∧ ft'.bucketsFree = maxBuckets ∧
      ft'.gone.Perm (ft.gone ++ waiting ft) ∧ ft'.fragsDiscarded = (ft.gone.length + (waiting ft).length) % 4294967296 := by
  obtain ⟨ft, outs, t', e1, ht', i1⟩ := ft_at_end (hsize := hsize) (mb := maxBuckets) (mf := maxFragments) (mtu := mtu) (t := t) (reass := reass) hpos ht hM
  refine ⟨ft, outs, ?_⟩
  have hn := toNanos_wrap nsec
  generalize ((nsec - 1000000000) % 2 ^ 64).toNat = now at hn
  obtain ⟨i2, p2, -, -⟩ := stats_any i1 now
  have hlt : t' + u32 (t * ms) < 2 ^ 64 - 1 := Nat.lt_of_le_of_lt (Nat.add_le_add_right ht' _) hlate
  obtain ⟨i3, p3, -, -⟩ := stats_any i2 (2 ^ 64 - 1)
  have hv := stats_late i2 (by omega) hlt
  obtain ⟨a1, a2, a3, a4⟩ := finv_empty i3 hv
  have hd := i3.disc
  rw [a3, List.append_nil] at p3
  rw [destroy_eq] at a1 a2 a4 hd p3
  have pg := p3.trans p2
  refine ⟨onEvents (fragGetStats ft now) (Ct.destroy (fragGetStats ft now).ct), e1, by unfold fragTableDestroy; rw [hn]; rfl, a1, a2, a4, ?_, ?_⟩
  · rw [waiting_eq]; exact pg
  · rw [waiting_eq, ← List.length_append, ← pg.length_eq]; exact hd

/-- Two datagrams wait in one place of a table for their first fragments; `tv_nsec` is such that the statistics find nothing to collect; both objects, both buffers and the bucket come back. -/
example : (do
    let x ← run (create 1 1 2 1500 200 false) [.frag 7 (ftKey99 1) 11 100 true 1, .frag 8 (ftKey99 2) 22 100 true 1]
    let y ← fragTableDestroy true false 2 2 1 1000000008 x.1
    return ([x.1.freeObjs, y.freeObjs, y.gone], [x.1.fragsFree, x.1.bucketsFree, y.fragsFree, y.bucketsFree, y.fragsDiscarded])) =
    Res.ok ([[], [2, 1], [22, 11]], [0, 0, 2, 1, 2]) := by decide +kernel

/-- C99 (partial): if moreover `tv_nsec` happens to be a number of nanoseconds, the assertions hold that are compiled in with `SANITY_CHECK`, if the clock is a ttl and a second before the end. Missing: the variable is not initialised; with
some values the assertions fail, see `C99_violated`. -/
theorem C99_check_partial (hsize maxBuckets maxFragments mtu t M : Nat) (reass : Bool) (hpos : 0 < hsize) (ops : List Op) (ht : Timed 0 ops) (hM : ∀ o ∈ ops, timeOf o ≤ M)
    (hlate : M + t * 1000000 % 4294967296 < 2 ^ 64 - 1000000000) (nsec : Int) (h0 : 0 ≤ nsec) (h1 : nsec < 1000000000) :
    ∃ ft outs ft', run (create hsize maxBuckets maxFragments mtu t reass) ops = .ok (ft, outs) ∧
      fragTableDestroy true true ((hsize + maxBuckets) % 4294967296) maxFragments maxBuckets nsec ft = .ok ft' := by
  obtain ⟨ft, outs, t', e1, ht', i1⟩ := ft_at_end (hsize := hsize) (mb := maxBuckets) (mf := maxFragments) (mtu := mtu) (t := t) (reass := reass) hpos ht hM
  have hn := toNanos_wrap nsec
  have hb : 2 ^ 64 - 1000000000 ≤ ((nsec - 1000000000) % 2 ^ 64).toNat ∧ ((nsec - 1000000000) % 2 ^ 64).toNat < 2 ^ 64 := by omega
  generalize ((nsec - 1000000000) % 2 ^ 64).toNat = now at hn hb
  obtain ⟨i2, -, -, ha⟩ := stats_any i1 now
  have hlt : t' + u32 (t * ms) < now := Nat.lt_of_lt_of_le (Nat.lt_of_le_of_lt (Nat.add_le_add_right ht' _) hlate) hb.1
  have hv := stats_late i1 hb.2 hlt
  obtain ⟨a1, a2, a3, a4⟩ := finv_empty i2 hv
  have hl : (fragGetStats ft now).freeObjs.length = (hsize + maxBuckets) % 4294967296 := by rw [a1.length_eq, List.length_range']; rfl
  have hf : allFree (fragGetStats ft now) ((hsize + maxBuckets) % 4294967296) maxFragments maxBuckets = true := by
    unfold allFree
    rw [ha hv, hl, a2, a4]
    simp
  refine ⟨ft, outs, onEvents (fragGetStats ft now) (Ct.destroy (fragGetStats ft now).ct), e1, ?_⟩
  unfold fragTableDestroy
  rw [hn, Res.ok_bind]
  dsimp only
  rw [hf]
  rfl

example : (do
    let x ← run (create 1 1 2 1500 200 false) [.frag 7 (ftKey99 1) 11 100 true 1, .frag 8 (ftKey99 2) 22 100 true 1]
    let y ← fragTableDestroy true true 2 2 1 999999999 x.1
    return (y.freeObjs, y.fragsFree, y.bucketsFree)) = Res.ok ([2, 1], 2, 1) := by decide +kernel

/-- C99: the time at which all entries are said to be old is the greatest number of 64 bits with sign. -/
theorem C99_time : maxTime = 2 ^ 63 - 1 := by decide

/-- C99 does not hold: 1. the greatest time in seconds is multiplied with 10^9, which is undefined for every table, whatever else is in the variable; 2. also if the compiler wraps, for some values of the variable that is not
initialised the assertions fail, on a table with one datagram. -/
theorem C99_violated :
    (∀ (check : Bool) (objs frags bkts : Nat) (nsec : Int) (ft : Ft), fragTableDestroy false check objs frags bkts nsec ft = .ub) ∧
      ∃ nsec : Int, -(2 ^ 63) ≤ nsec ∧ nsec < 2 ^ 63 ∧
        (do let x ← run (create 1 1 2 1500 200 false) [.first 7 (ftKey99 1) 3 true]; fragTableDestroy true true 2 2 1 nsec x.1) = .die := by
  refine ⟨?_, 1000000007, by decide, by decide, ?_⟩
  · intro check objs frags bkts nsec ft
    have : toNanos false maxTime nsec = .ub := by
      unfold toNanos
      have : isLong (maxTime * 1000000000) = false := by decide
      rw [this]
      rfl
    unfold fragTableDestroy
    rw [this]
    rfl
  · have h1 : toNanos true maxTime 1000000007 = .ok 7 := by decide
    unfold fragTableDestroy
    rw [h1]
    have : (do let x ← run (create 1 1 2 1500 200 false) [.first 7 (ftKey99 1) 3 true]; return allFree (fragGetStats x.1 7) 2 2 1) = Res.ok false := by decide +kernel
    cases hx : run (create 1 1 2 1500 200 false) [.first 7 (ftKey99 1) 3 true] with
    | ok x =>
      rw [hx, Res.ok_bind] at this
      rw [Res.ok_bind, Res.ok_bind]
      dsimp only
      rw [Res.ok.inj this]
      rfl
    | die => rw [hx] at this; cases this
    | ub => rw [hx] at this; cases this
    | hang => rw [hx] at this; cases this

/-- What the limits are about: the seconds of a clock that shows a time before the year 2262 give nanoseconds that do not overflow. -/
theorem C99_clock (wrap : Bool) (sec nsec : Nat) (hs : sec < 9223372036) (hn : nsec < 1000000000) : toNanos wrap sec nsec = .ok (sec * 1000000000 + nsec) := by
  unfold toNanos isLong
  have h1 : (decide (-(2 ^ 63) ≤ (sec : Int) * 1000000000) && decide ((sec : Int) * 1000000000 < 2 ^ 63)) = true := by
    rw [Bool.and_eq_true, decide_eq_true_eq, decide_eq_true_eq]; omega
  have h2 : (decide (-(2 ^ 63) ≤ (sec : Int) * 1000000000 + nsec) && decide ((sec : Int) * 1000000000 + nsec < 2 ^ 63)) = true := by
    rw [Bool.and_eq_true, decide_eq_true_eq, decide_eq_true_eq]; omega
  rw [h1, h2]
  have h3 : (((sec : Int) * 1000000000 + nsec) % 2 ^ 64).toNat = sec * 1000000000 + nsec := by omega
  rw [h3]
  simp

example : toNanos false 1763000000 123456789 = .ok 1763000000123456789 := by decide

end Nfqlb.Props
