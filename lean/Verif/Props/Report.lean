import Verif.Proof.Report
import Verif.Props.Maglev
import Verif.Props.FragTable

/-! The properties C79 and C80: what `nfqlb stats` and `nfqlb show` print. -/

set_option autoImplicit false

namespace Nfqlb.Props

open Nfqlb.Report Nfqlb.Spec.J

/-! ### C79: the statistics -/

/-- C79, violated: the output of `nfqlb stats` is never JSON, whatever the counters are: after `fragsDiscarded` there is no comma. (The reader does not know everything that may be in JSON, see
`Verif/Spec/Json.lean`; but what it does not know is not in this text.) -/
theorem C79_violated (s : FragStats) : parse (fragPrintStats s) = none := print_fail s

/-- C79, partial: with one comma more it is JSON, and the members are all counters with their values, for all values. Missing: the comma. -/
theorem C79_values_partial (s : FragStats) : ∃ a b, fragPrintStats s = a ++ b ∧
    parse (a ++ ',' :: b) = some (.obj [
      ("hsize".toList, .num s.size), ("ttlMillis".toList, .num (s.ttlNanos / 1000000 % 4294967296)), ("collisions".toList, .num s.collisions), ("inserts".toList, .num s.inserts),
      ("rejected".toList, .num s.rejectedInserts), ("lookups".toList, .num s.lookups), ("objGC".toList, .num s.objGC), ("mtu".toList, .num s.mtu),
      ("bucketsMax".toList, .num s.bucketsMax), ("bucketsAllocated".toList, .num s.bucketsAllocated), ("bucketsUsed".toList, .num s.bucketsUsed),
      ("fragsMax".toList, .num s.fragsMax), ("fragsAllocated".toList, .num s.fragsAllocated), ("fragsDiscarded".toList, .num s.fragsDiscarded),
      ("reAssembled".toList, .num s.reAssembled)]) := print_fixed s

/-- Counters for the examples. -/
def rStats : FragStats := ⟨500, 200000000, 1, 20, 3, 40, 5, 1500, 500, 6, 2, 100, 30, 4, 0⟩

example : (fragPrintStats rStats).take 28 = "{\n  \"hsize\":            500,".toList := by decide +kernel

example : parse (fragPrintStats rStats) = none := C79_violated rStats

/-- C79, partial: what the counters say, in every history of a fragment table: the sizes are those given when it was made; `bucketsUsed` is the number of entries that are in the table beyond the first one of
each place; `fragsAllocated` is the number of fragments taken over; `fragsDiscarded` is the number of those that were lost. All in 32 bits, where the counters start again with 0. Missing: that
`ttlMillis` is the timeout given, which holds only for less than 4295 (C32). -/
theorem C79_table_partial (hsize maxBuckets maxFragments mtu t : Nat) (reass : Bool) (hpos : 0 < hsize) (ops : List Frag.Op) (ht : Spec.Frag.Timed 0 ops) :
    ∃ ft outs, Frag.run (Frag.create hsize maxBuckets maxFragments mtu t reass) ops = .ok (ft, outs) ∧
      let s := tableStats ft maxBuckets maxFragments
      s.size = hsize ∧ s.ttlNanos = t * 1000000 % 4294967296 ∧ s.mtu = mtu ∧ s.bucketsMax = maxBuckets ∧ s.fragsMax = maxFragments ∧
      s.bucketsUsed = (ft.ct.buckets.map (fun b => b.chain.length)).sum % 4294967296 ∧
      s.fragsAllocated = ((ops.zip outs).flatMap Spec.Frag.accepted).length % 4294967296 ∧
      s.fragsDiscarded = ft.gone.length % 4294967296 := by
  have hc := Frag.create_finv (hsize := hsize) (mb := maxBuckets) (mf := maxFragments) (mtu := mtu) (t := t) (reass := reass) hpos
  obtain ⟨ft, outs, e1, -, i1, hm, -⟩ := Frag.run_spec ops hc ht
  obtain ⟨a1, a2, a3, a4, a5⟩ := Frag.run_counts ops hc ht e1
  refine ⟨ft, outs, e1, a5, i1.ttl, hm, rfl, rfl, ?_, ?_, i1.disc⟩
  · have h1 := i1.bkt
    have h2 := a4 (show 0 < 4294967296 by decide)
    have h3 : (ft.bucketsUsed + ft.bucketsFree) % 4294967296 = (0 + maxBuckets) % 4294967296 := a3
    show ft.bucketsUsed = Ct.chains ft.ct % 4294967296
    omega
  · have h1 : ft.fragsAllocated % 4294967296 = (0 + ((ops.zip outs).flatMap Spec.Frag.accepted).length) % 4294967296 := a1
    have h2 := a2 (show 0 < 4294967296 by decide)
    show ft.fragsAllocated = _
    omega

/-- A history with counters that are not 0: two datagrams in one place, one fragment taken over, another one does not fit and both are lost. -/
example : (do
    let (ft, _) ← Frag.run (Frag.create 1 1 1 1500 200 false) [.first 5 (ftKey 1) 7 true, .frag 6 (ftKey 2) 1 100 true 1, .frag 7 (ftKey 2) 2 100 true 1]
    let s := tableStats ft 1 1
    return (s.size, s.ttlNanos, s.mtu, s.bucketsUsed, s.fragsAllocated, s.fragsDiscarded)) = .ok (1, 200000000, 1500, 1, 1, 1) := by decide +kernel

/-- C79, violated: a timeout of 5 seconds is reported as 705 milliseconds. -/
theorem C79_timeout_violated : (tableStats (Frag.create 500 500 100 1500 5000 false) 500 100).ttlNanos / 1000000 = 705 := by decide +kernel

/-! ### C80: the table that is shown -/

/-- C80: after `init` with any numbers and any random numbers, and any history of commands, `nfqlb show` reads nothing outside of the tables, and whoever reads the output gets: the name of the shared memory, the own
mark, the size of the lookup table and the maximum number of targets, the first 25 entries of the lookup table (all, if there are less), and all active targets, each with its index, in the order of the indices. -/
theorem C80_show (M N : Nat) (rnd : Nat → Nat) (cs : List Maglev.Cmd) (d d' : Maglev.Mag) (hM : M < 2 ^ 32) (hd : Maglev.cmdInit M N rnd = .ok d) (hd' : Maglev.runCmds d cs = .ok d')
    (shm : List Char) (own : Int) (hs : '\n' ∉ shm) :
    ∃ txt, cmdShow shm own d' = .ok txt ∧
      Spec.Show.read txt = some ⟨shm, own, d'.M, N, d'.lookup.take 25, d'.active.zipIdx.filter (fun x => decide (0 ≤ x.1))⟩ := by
  obtain ⟨p, hp, hpp, h3, hle, hNp, hinit, hdM⟩ := Maglev.cmdInit_eq hM hd
  obtain ⟨hinv, hN, _⟩ := Maglev.init_inv (by omega) hinit
  obtain ⟨hinv', h1, h2, h4⟩ := Maglev.runCmds_inv cs hinv hd'
  have hl : d'.lookup.length = d'.M := by
    by_cases h : ∃ i, Spec.ActiveAt d'.active i
    · exact (hinv'.good.1.1 h).1
    · exact (hinv'.good.1.2 h).1
  have := show_read hl hinv'.alen (by omega) (by omega) shm hs own
  rw [h2, hN] at this
  exact this

/-- C80: so a mark and an index are in the output exactly when the target with this index is active and has this mark. -/
theorem C80_shown_iff_active (M N : Nat) (rnd : Nat → Nat) (cs : List Maglev.Cmd) (d d' : Maglev.Mag) (hM : M < 2 ^ 32) (hd : Maglev.cmdInit M N rnd = .ok d) (hd' : Maglev.runCmds d cs = .ok d')
    (shm : List Char) (own : Int) (hs : '\n' ∉ shm) :
    ∃ txt shown, cmdShow shm own d' = .ok txt ∧ Spec.Show.read txt = some shown ∧
      (∀ m i, (m, i) ∈ shown.targets ↔ 0 ≤ m ∧ d'.active[i]? = some m) ∧ (shown.targets.map Prod.snd).Pairwise (· < ·) := by
  obtain ⟨txt, h1, h2⟩ := C80_show M N rnd cs d d' hM hd hd' shm own hs
  refine ⟨txt, _, h1, h2, fun m i => ?_, ?_⟩
  · dsimp only
    rw [List.mem_filter, List.mk_mem_zipIdx_iff_getElem?]
    simp only [decide_eq_true_eq]
    exact and_comm
  · dsimp only
    have hp : (d'.active.zipIdx.map Prod.snd).Pairwise (· < ·) := by
      rw [List.zipIdx_map_snd]
      exact List.pairwise_lt_range'
    exact hp.sublist ((List.filter_sublist).map _)

/-- C80: with `activate` and `deactivate` of marks (no `--index`), the marks shown are exactly the set that the commands make (C05). -/
theorem C80_shown_set (M N : Nat) (rnd : Nat → Nat) (cs : List Spec.MarkCmd) (d d' : Maglev.Mag) (hM : M < 2 ^ 32) (hd : Maglev.cmdInit M N rnd = .ok d)
    (hd' : Maglev.runCmds d (cs.map Maglev.ofMark) = .ok d') (shm : List Char) (own : Int) (hs : '\n' ∉ shm) :
    ∃ txt shown, cmdShow shm own d' = .ok txt ∧ Spec.Show.read txt = some shown ∧ (shown.targets.map Prod.fst).toFinset = Spec.setRun N ∅ cs ∧ (shown.targets.map Prod.fst).Nodup := by
  obtain ⟨txt, h1, h2⟩ := C80_show M N rnd _ d d' hM hd hd' shm own hs
  obtain ⟨h3, h4⟩ := C05_set_semantics_partial M N rnd cs d d' hM hd hd'
  have e : (d'.active.zipIdx.filter (fun x => decide (0 ≤ x.1))).map Prod.fst = d'.active.filter (fun a => decide (0 ≤ a)) := by
    have : ∀ (l : List Int) (k : Nat), ((l.zipIdx k).filter (fun x => decide (0 ≤ x.1))).map Prod.fst = l.filter (fun a => decide (0 ≤ a)) := by
      intro l
      induction l with
      | nil => intro k; rfl
      | cons a l ih =>
        intro k
        rw [List.zipIdx_cons, List.filter_cons, List.filter_cons]
        split
        · rw [List.map_cons, ih]
        · exact ih _
    exact this _ _
  refine ⟨txt, _, h1, h2, ?_, ?_⟩
  · dsimp only
    rw [e, ← h3]
    rfl
  · dsimp only
    rw [e]
    exact (Maglev.noDuplicates_iff _).1 h4

/-- A case that meets the hypotheses: three commands, then the text. -/
example : (do
    let d ← Maglev.runCmds demo [.activate [5, 6, 7], .deactivate [6], .activateAt 1 (some 100)]
    cmdShow "nfqlb".toList 3 d) = .ok "Shm: nfqlb\n  Fw: own=3\n  Maglev: M=7, N=3\n   Lookup: 0 0 1 2 2 0 1...\n   Active: 5(0) 100(1) 7(2)\n".toList := by decide +kernel

end Nfqlb.Props
