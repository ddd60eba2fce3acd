import Verif.Proof.FragIdeal
import Verif.Props.FragTable

/-! The property C90: the fragment table loses nothing as long as there is room. -/

set_option autoImplicit false

namespace Nfqlb.Props

open Nfqlb.Frag Nfqlb.Spec.Frag

/-! ### C90 -/

/-- C90: in every history in which a table with unlimited memory would at no time hold more than `maxBuckets` datagrams and `maxFragments` fragments, the fragment table gives exactly
the answers of this ideal table: a first fragment is registered and gets all fragments that wait for it, a later fragment gets the value or waits, and none is refused
except for its size or because the first fragment was seen before. Collisions in the table do not matter. `t` is the timeout in milliseconds; no reassembler reports
that a datagram is complete. -/
theorem C90_room (hsize maxBuckets maxFragments mtu t : Nat) (reass : Bool) (hpos : 0 < hsize) (h32 : hsize + maxBuckets < 2 ^ 32) (ops : List Op) (ht : Timed 0 ops)
    (hc : ∀ o ∈ ops, ¬ completes o) (hfits : Fits (t * 1000000 % 4294967296) mtu maxBuckets maxFragments [] ops) :
    ∃ ft, run (create hsize maxBuckets maxFragments mtu t reass) ops = .ok (ft, idealOuts (t * 1000000 % 4294967296) mtu [] ops) := by
  have hN : u32 (hsize + maxBuckets) = hsize + maxBuckets := by unfold u32; omega
  exact ideal_run ops (create_finv hpos) ht (create_rel hpos _) rfl hc (by rw [hN]; omega) hfits

/-- C90, counted: if all operations are about at most `maxBuckets` datagrams and there are at most `maxFragments` later fragments, then no fragment that is not longer than the mtu is
refused, in whatever order the fragments come. -/
theorem C90_few (hsize maxBuckets maxFragments mtu t : Nat) (reass : Bool) (hpos : 0 < hsize) (h32 : hsize + maxBuckets < 2 ^ 32) (ops : List Op) (ht : Timed 0 ops)
    (hc : ∀ o ∈ ops, ¬ completes o) (ks : List Key) (hks : ks.length ≤ maxBuckets) (hk : ∀ o ∈ ops, ∀ k, keyOf o = some k → k ∈ ks)
    (hfr : ops.countP isLater ≤ maxFragments) :
    ∃ ft outs, run (create hsize maxBuckets maxFragments mtu t reass) ops = .ok (ft, outs) ∧
      ∀ now k id len newOk rcAsm r, (Op.frag now k id len newOk rcAsm, r) ∈ ops.zip outs → len ≤ mtu → r.rc ≠ -1 := by
  have hf : Fits (t * 1000000 % 4294967296) mtu maxBuckets maxFragments [] ops :=
    small_fits hks ops (n := 0) ⟨by simp, by simp, Nat.le_refl _⟩ hk (by omega)
  obtain ⟨ft, h⟩ := C90_room hsize maxBuckets maxFragments mtu t reass hpos h32 ops ht hc hf
  refine ⟨ft, _, h, ?_⟩
  intro now k id len newOk rcAsm r hm hl
  exact idealOuts_later hl ops [] hm

/-- Three datagrams in a table of one bucket and two more: fragments come before the first one, a datagram gets old, and a new one with the same identification comes. -/
def idealOps : List Op :=
  [.frag 1 (ftKey 1) 11 100 true 1, .frag 2 (ftKey 2) 21 100 true 1, .first 3 (ftKey 2) 8 true, .frag 4 (ftKey 1) 12 100 true 1, .frag 5 (ftKey 2) 22 100 true 1,
    .first 6 (ftKey 1) 7 true, .get 7 (ftKey 1), .first 8 (ftKey 2) 9 true, .frag 2000000 (ftKey 1) 13 100 true 1, .first 2000001 (ftKey 1) 5 true, .stats 2000002,
    .first 2000003 (ftKey 3) 6 true, .frag 2000004 (ftKey 4) 41 2000 true 1]

/-- A case that meets the hypotheses of `C90_room`, and what comes out. -/
example : Timed 0 idealOps ∧ (∀ o ∈ idealOps, ¬ completes o) := by
  constructor
  · simp [idealOps, Timed, timeOf]
  · intro o ho
    simp only [idealOps, List.mem_cons, List.not_mem_nil, or_false] at ho
    rcases ho with rfl | rfl | rfl | rfl | rfl | rfl | rfl | rfl | rfl | rfl | rfl | rfl | rfl <;> simp [completes]

example : Fits (1 * 1000000 % 4294967296) 1500 3 2 [] idealOps := by decide +kernel

example : idealOuts (1 * 1000000 % 4294967296) 1500 [] idealOps =
    [⟨1, none, []⟩, ⟨1, none, []⟩, ⟨0, none, [21]⟩, ⟨1, none, []⟩, ⟨0, some 8, []⟩, ⟨0, none, [12, 11]⟩, ⟨0, some 7, []⟩, ⟨-1, none, []⟩, ⟨1, none, []⟩,
      ⟨0, none, [13]⟩, ⟨0, none, []⟩, ⟨0, none, []⟩, ⟨-1, none, []⟩] := by decide +kernel

/-- The same without room for the fragments of two datagrams: one of the datagrams is lost, so the hypothesis is needed. -/
example : ¬ Fits (1 * 1000000 % 4294967296) 1500 3 1 [] idealOps ∧
    (do let x ← run (create 1 3 1 1500 1 false) (idealOps.take 3); return x.2) = .ok [⟨1, none, []⟩, ⟨-1, none, []⟩, ⟨-1, none, []⟩] := by decide +kernel

/-- A case that meets the hypotheses of `C90_few`. -/
example : (∀ o ∈ idealOps, ∀ k, keyOf o = some k → k ∈ [ftKey 1, ftKey 2, ftKey 3, ftKey 4]) ∧ idealOps.countP isLater ≤ 6 := by decide +kernel

/-! ### C94 -/

/-- C94, after the statistics were read: whatever happened before, if everything is more than the ttl ago, then the table gives from then on the answers of an ideal table that knows nothing, as long as there is room for what
comes. Missing: that this is so without reading the statistics, which the load-balancers never do; it is false, see `C94_violated`. -/
theorem C94_stats_partial (hsize maxBuckets maxFragments mtu t : Nat) (reass : Bool) (hpos : 0 < hsize) (h32 : hsize + maxBuckets < 2 ^ 32) (before after : List Op) (now : Nat)
    (ht : Timed 0 (before ++ .stats now :: after)) (hold : ∀ o ∈ before, timeOf o + t * 1000000 % 4294967296 < now) (hc : ∀ o ∈ after, ¬ completes o)
    (hfits : Fits (t * 1000000 % 4294967296) mtu maxBuckets maxFragments [] after) :
    ∃ ft outs, run (create hsize maxBuckets maxFragments mtu t reass) (before ++ .stats now :: after) = .ok (ft, outs ++ ⟨0, none, []⟩ :: idealOuts (t * 1000000 % 4294967296) mtu [] after) ∧
      outs.length = before.length := by
  have hN : u32 (hsize + maxBuckets) = hsize + maxBuckets := by unfold u32; omega
  obtain ⟨ht1, ht2, ht3, ht4⟩ := (timed_append _ _ _).1 ht
  have i0 := create_finv (hsize := hsize) (mb := maxBuckets) (mf := maxFragments) (mtu := mtu) (t := t) (reass := reass) hpos
  obtain ⟨ft1, outs, e1, l1, i1, m1, -⟩ := run_spec before i0 ht1
  obtain ⟨ft2, out, e2, st⟩ := step_all i1 (.stats now) ht2
  have hout : out = ⟨0, none, []⟩ := by
    simp only [step, Res.ok.injEq, Prod.mk.injEq] at e2
    exact e2.2.symm
  subst hout
  have hempty := forgotten i1 st ht3 (by
    cases before with
    | nil =>
      cases e1
      exact .inl (create_nothing hpos)
    | cons o os =>
      refine .inr ?_
      obtain ⟨o', ho', he⟩ := endTime_mem (o :: os) 0 (by simp)
      rw [he]
      exact hold o' ho')
  obtain ⟨ft3, e3⟩ := ideal_run after st.inv ht4 hempty (st.mtu.trans m1) hc (by rw [hN]; omega) hfits
  exact ⟨ft3, outs, run_two e1 (run_cons' e2 e3), l1⟩

/-- A case that meets the hypotheses: a table that is full of old fragments, and new ones after the statistics were read. -/
example : Timed 0 ([Op.frag 0 (ftKey 1) 11 100 true 1] ++ .stats 2000001 :: [.frag 2000002 (ftKey 2) 21 100 true 1, .first 2000003 (ftKey 2) 8 true]) ∧
    Fits (1 * 1000000 % 4294967296) 1500 3 1 [] [.frag 2000002 (ftKey 2) 21 100 true 1, .first 2000003 (ftKey 2) 8 true] ∧
    idealOuts (1 * 1000000 % 4294967296) 1500 [] [.frag 2000002 (ftKey 2) 21 100 true 1, .first 2000003 (ftKey 2) 8 true] = [⟨1, none, []⟩, ⟨0, none, [21]⟩] := by
  refine ⟨by simp [Timed, timeOf], by decide +kernel, by decide +kernel⟩

set_option maxRecDepth 100000 in
/-- C94 as stated is false: a fragment whose first fragment never came takes the only place for fragments. However long ago that was, the fragment of another datagram is refused. Old entries are only looked at when a packet with a key in the same bucket comes. -/
theorem C94_violated (now : Nat) :
    (do let x ← run (create 2 10 1 1500 200 false) [.frag 0 (ftKey 1) 11 100 true 1, .frag now (ftKey 2) 21 100 true 1]; return x.2) = .ok [⟨1, none, []⟩, ⟨-1, none, []⟩] := rfl

/-- The first fragment of the other datagram is then dropped too; here after a quarter of an hour. -/
example : (do let x ← run (create 2 10 1 1500 200 false) [.frag 0 (ftKey 1) 11 100 true 1, .frag 900000000000 (ftKey 2) 21 100 true 1, .first 900000000001 (ftKey 2) 8 true]; return x.2) =
      .ok [⟨1, none, []⟩, ⟨-1, none, []⟩, ⟨-1, none, []⟩] := by decide +kernel

/-- The ideal table has room for it, if the old datagram is forgotten. -/
example : Fits (200 * 1000000 % 4294967296) 1500 10 1 [] [.frag 1000000000000 (ftKey 2) 21 100 true 1, .first 1000000000000 (ftKey 2) 8 true] := by decide +kernel

end Nfqlb.Props
