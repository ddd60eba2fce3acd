import Verif.Proof.FragRuns

/-! The properties C29 to C32: the fragment table. The calls do not overlap in time here; for overlapping calls see C33. -/

set_option autoImplicit false

namespace Nfqlb.Props

open Nfqlb.Frag Nfqlb.Spec.Frag

/-- Keys for the examples. -/
def ftKey (n : UInt8) : Key := { Key.zero with dst := List.replicate 15 0 ++ [n] }

/-! ### C29: all fragments follow the first one -/

/-- C29: in every history of a fragment table, from the moment where a first fragment was registered (code 0) with a value on, all fragments of this datagram get exactly
this value, and another first fragment is refused, until there was a gap of more than the ttl or the datagram was complete. The other operations may be about
any number of other datagrams. `t` is the timeout in milliseconds, for the ttl see C32. -/
theorem C29_all_fragments_follow (hsize maxBuckets maxFragments mtu t : Nat) (reass : Bool) (hpos : 0 < hsize) (pre mid : List Op)
    (now : Nat) (k : Key) (v : Int) (newOk : Bool) (ht : Timed 0 (pre ++ .first now k v newOk :: mid)) :
    ∃ ft r1 ft1 o ft2 r2, run (create hsize maxBuckets maxFragments mtu t reass) pre = .ok (ft, r1) ∧
      step ft (.first now k v newOk) = .ok (ft1, o) ∧ run ft1 mid = .ok (ft2, r2) ∧ r2.length = mid.length ∧
      (o.rc = 0 → Follows k v (t * 1000000 % 4294967296) now (mid.zip r2)) := by
  obtain ⟨h1, h2⟩ := (timed_append pre _ 0).1 ht
  obtain ⟨h3, h4, h5⟩ := h2
  obtain ⟨ft, r1, e1, -, i1, -, -⟩ := run_spec pre (create_finv hpos) h1
  obtain ⟨ft1, o, e2, st⟩ := step_all i1 _ h3
  obtain ⟨ft2, r2, e3, hl, -, -, -⟩ := run_spec mid st.inv h5
  refine ⟨ft, r1, ft1, o, ft2, r2, e1, e2, e3, hl, ?_⟩
  intro hrc
  have hv := view_first st hrc
  exact follows_run k v mid (e := ⟨now, .hashValid, v, []⟩) st.inv h5 (keeps_start hv) rfl rfl rfl e3

/-- A case that meets the hypotheses: two datagrams in the same place of the table; the first fragments are registered and later fragments get the values. -/
example : Timed 0 ([.first 5 (ftKey 1) 7 true] ++ .first 6 (ftKey 2) 8 true :: [.frag 7 (ftKey 1) 1 100 true 1, .frag 8 (ftKey 2) 2 100 true 1, .get 9 (ftKey 2)]) := by
  simp [Timed, timeOf]

example : (do
    let x ← run (create 1 1 2 1500 200 true) [.first 5 (ftKey 1) 7 true, .first 6 (ftKey 2) 8 true, .frag 7 (ftKey 1) 1 100 true 1, .frag 8 (ftKey 2) 2 100 true 1,
      .get 9 (ftKey 2)]
    return x.2) =
    .ok [⟨0, none, []⟩, ⟨0, none, []⟩, ⟨0, some 7, []⟩, ⟨0, some 8, []⟩, ⟨0, some 8, []⟩] := by decide +kernel

/-! ### C30: the stored fragments -/

/-- C30: in every history, the fragments that the table took over are exactly those handed out with first fragments, those discarded and those that wait in the table;
the ones discarded are counted (in 32 bits), and the number of free buffers plus the number of waiting fragments is the size of the store. -/
theorem C30_accounted (hsize maxBuckets maxFragments mtu t : Nat) (reass : Bool) (hpos : 0 < hsize) (ops : List Op) (ht : Timed 0 ops) :
    ∃ ft outs, run (create hsize maxBuckets maxFragments mtu t reass) ops = .ok (ft, outs) ∧ outs.length = ops.length ∧
      (((ops.zip outs).flatMap accepted).map Prod.snd).Perm ((ops.zip outs).flatMap (fun x => x.2.injected) ++ ft.gone ++ waiting ft) ∧
      ft.fragsDiscarded = ft.gone.length % 4294967296 ∧ ft.fragsFree + (waiting ft).length = maxFragments := by
  have hc := create_finv (hsize := hsize) (mb := maxBuckets) (mf := maxFragments) (mtu := mtu) (t := t) (reass := reass) hpos
  obtain ⟨ft, outs, e1, hl, i1, -, hp⟩ := run_spec ops hc ht
  refine ⟨ft, outs, e1, hl, ?_, i1.disc, ?_⟩
  · rw [waiting_eq]
    have h0 : storedAll (create hsize maxBuckets maxFragments mtu t reass) = [] := by
      have := hc.frags
      have h2 : (create hsize maxBuckets maxFragments mtu t reass).fragsFree = maxFragments := rfl
      rw [h2, ← storedAll_length] at this
      exact List.eq_nil_of_length_eq_zero (by omega)
    have hg : (create hsize maxBuckets maxFragments mtu t reass).gone = [] := rfl
    rw [h0, hg, List.append_nil, List.append_nil] at hp
    exact hp.symm
  · rw [waiting_eq, storedAll_length]
    exact i1.frags

/-- C30: what is handed out with the first fragment of a datagram was taken over as a fragment of the same datagram, and is not handed out more often than it was taken over.
(As this holds for every history, it holds for every beginning of one.) -/
theorem C30_same_datagram (hsize maxBuckets maxFragments mtu t : Nat) (reass : Bool) (hpos : 0 < hsize) (ops : List Op) (ht : Timed 0 ops) :
    ∃ ft outs, run (create hsize maxBuckets maxFragments mtu t reass) ops = .ok (ft, outs) ∧
      ∀ (k : Key) (id : Nat), ((ops.zip outs).flatMap delivered).count (k, id) ≤ ((ops.zip outs).flatMap accepted).count (k, id) := by
  have hc := create_finv (hsize := hsize) (mb := maxBuckets) (mf := maxFragments) (mtu := mtu) (t := t) (reass := reass) hpos
  obtain ⟨ft, outs, e1, hl, i1, -, hp⟩ := run_spec ops hc ht
  refine ⟨ft, outs, e1, fun k id => ?_⟩
  have := delivered_run k id ops hc ht e1
  rw [create_view hpos] at this
  simpa [vstored] using this

/-- C30: a fragment that was taken over is handed out when the first fragment arrives in time, unless the datagram has lost a fragment before (C31).
A fragment that is refused because it is larger than the mtu has no influence. -/
theorem C30_delivered (hsize maxBuckets maxFragments mtu t : Nat) (reass : Bool) (hpos : 0 < hsize) (pre mid : List Op)
    (now : Nat) (k : Key) (id len : Nat) (newOk : Bool) (rcAsm : Int) (ht : Timed 0 (pre ++ .frag now k id len newOk rcAsm :: mid)) :
    ∃ ft r1 ft1 o ft2 r2, run (create hsize maxBuckets maxFragments mtu t reass) pre = .ok (ft, r1) ∧
      step ft (.frag now k id len newOk rcAsm) = .ok (ft1, o) ∧ run ft1 mid = .ok (ft2, r2) ∧ r2.length = mid.length ∧
      (o.rc = 1 → ∃ ids, id ∈ ids ∧ Waits mtu k (t * 1000000 % 4294967296) now ids (mid.zip r2)) := by
  obtain ⟨h1, h2⟩ := (timed_append pre _ 0).1 ht
  obtain ⟨h3, h4, h5⟩ := h2
  obtain ⟨ft, r1, e1, -, i1, hm, -⟩ := run_spec pre (create_finv hpos) h1
  obtain ⟨ft1, o, e2, st⟩ := step_all i1 _ h3
  obtain ⟨ft2, r2, e3, hl, -, -, -⟩ := run_spec mid st.inv h5
  refine ⟨ft, r1, ft1, o, ft2, r2, e1, e2, e3, hl, ?_⟩
  intro hrc
  have hself := st.self k rfl
  have hm1 : ft1.mtu = mtu := st.mtu.trans hm
  generalize hb : view ft1 (timeOf (.frag now k id len newOk rcAsm)) k = b at hself
  have hb' : view ft1 now k = b := hb
  generalize view ft (timeOf (.frag now k id len newOk rcAsm)) k = a at hself
  cases hself with
  | fragStore hB hq _ =>
    exact ⟨_, List.mem_cons_self, waits_run k mtu mid (e := ⟨now, .storing, _, _⟩) st.inv h5 hm1
      (keeps_start hb') rfl rfl e3⟩
  | fragFail => simp at hrc
  | fragOk _ => simp at hrc
  | fragDone _ => simp at hrc
  | fragPoisoned _ => simp at hrc
  | fragBig _ _ _ => simp at hrc
  | fragFull _ _ _ => simp at hrc

/-- A case: fragments of two datagrams come before the first fragments, one is too large. -/
example : (do
    let x ← run (create 1 1 3 1500 200 true) [.frag 5 (ftKey 1) 11 100 true 1, .frag 6 (ftKey 2) 21 100 true 1, .frag 7 (ftKey 1) 12 2000 true 1,
      .frag 7 (ftKey 1) 13 1500 true 1, .first 8 (ftKey 1) 7 true, .first 8 (ftKey 1) 7 true]
    return (x.2, x.1.fragsFree, waiting x.1)) =
    .ok ([⟨1, none, []⟩, ⟨1, none, []⟩, ⟨-1, none, []⟩, ⟨1, none, []⟩, ⟨0, none, [13, 11]⟩, ⟨-1, none, []⟩], 2, [21]) := by decide +kernel

/-- The datagrams that expire are discarded and counted. -/
example : (do
    let x ← run (create 1 1 3 1500 200 true) [.frag 5 (ftKey 1) 11 100 true 1, .frag 6 (ftKey 1) 12 100 true 1, .stats 300000000]
    return (x.1.fragsDiscarded, x.1.fragsFree, waiting x.1, x.1.gone)) = .ok (2, 3, [], [12, 11]) := by decide +kernel

/-! ### C31: a lost fragment -/

/-- C31: in every history, if a fragment (not larger than the mtu) is refused while the table has an entry for its datagram, then nothing waits for this datagram any more
(so that by `C30_accounted` what had waited is discarded and counted), and every later operation about it, also for the first fragment, is refused until there was
a gap of more than the ttl. -/
theorem C31_dropped_as_a_whole (hsize maxBuckets maxFragments mtu t : Nat) (reass : Bool) (hpos : 0 < hsize) (pre mid : List Op)
    (now : Nat) (k : Key) (id len : Nat) (newOk : Bool) (rcAsm : Int) (hlen : len ≤ mtu) (ht : Timed 0 (pre ++ .frag now k id len newOk rcAsm :: mid)) :
    ∃ ft r1 ft1 o ft2 r2, run (create hsize maxBuckets maxFragments mtu t reass) pre = .ok (ft, r1) ∧
      step ft (.frag now k id len newOk rcAsm) = .ok (ft1, o) ∧ run ft1 mid = .ok (ft2, r2) ∧ r2.length = mid.length ∧
      ∀ s, Spec.Stored ft1.ct s → s.key = k → now ≤ s.refered + s.ttl → o.rc = -1 →
        (ft1.objs s.data).stored = [] ∧ Refused k (t * 1000000 % 4294967296) now (mid.zip r2) := by
  obtain ⟨h1, h2⟩ := (timed_append pre _ 0).1 ht
  obtain ⟨h3, h4, h5⟩ := h2
  have hc := create_finv (hsize := hsize) (mb := maxBuckets) (mf := maxFragments) (mtu := mtu) (t := t) (reass := reass) hpos
  obtain ⟨ft, r1, e1, -, i1, hm, -⟩ := run_spec pre hc h1
  have hE := empty_run pre hc h1 (fun k e h => by rw [create_view hpos] at h; simp at h) e1
  obtain ⟨ft1, o, e2, st⟩ := step_all i1 _ h3
  obtain ⟨ft2, r2, e3, hl, -, -, -⟩ := run_spec mid st.inv h5
  have hE1 := (hE.advance i1 h3 h4).step st
  refine ⟨ft, r1, ft1, o, ft2, r2, e1, e2, e3, hl, ?_⟩
  rintro s hs rfl hn hrc
  have hv := view_of_stored st.inv h4 hs hn
  have hpois : (ft1.objs s.data).state = .poisoned ∧ s.refered = now := by
    have hself := st.self s.key rfl
    rw [hv] at hself
    generalize hb : some (ent s (ft1.objs s.data)) = b at hself
    generalize view ft (timeOf (.frag now s.key id len newOk rcAsm)) s.key = a at hself
    cases hself with
    | fragStore hB hq _ => simp at hrc
    | fragFail => simp at hb
    | fragOk _ => simp at hrc
    | fragDone _ => simp at hrc
    | fragPoisoned hp =>
      have h9 := Option.some.inj hb
      have g1 := congrArg Entry.st h9
      have g2 := congrArg Entry.last h9
      exact ⟨g1.trans hp, g2⟩
    | fragBig _ _ hbig => rw [hm] at hbig; exact absurd hbig (Nat.not_lt.2 hlen)
    | fragFull _ _ _ =>
      have h9 := Option.some.inj hb
      exact ⟨congrArg Entry.st h9, congrArg Entry.last h9⟩
  refine ⟨hE1 s.key _ hv (by simp [ent, hpois.1]), ?_⟩
  exact refused_run s.key mid (e := ent s (ft1.objs s.data)) st.inv h5 (keeps_start hv) hpois.2 hpois.1 e3

/-- A case that meets the hypotheses: a store for two fragments, one taken by another datagram. -/
example : (do
    let x ← run (create 1 1 2 1500 200 true) [.frag 5 (ftKey 2) 21 100 true 1, .frag 6 (ftKey 1) 11 100 true 1, .frag 7 (ftKey 1) 12 100 true 1]
    let y ← run x.1 [.frag 8 (ftKey 1) 13 100 true 1, .first 9 (ftKey 1) 7 true, .get 10 (ftKey 1), .first 200000011 (ftKey 1) 7 true]
    return (x.2, x.1.gone, x.1.ct.buckets.map (fun (b : Ct.Bucket) => (b.main :: b.chain).map (fun (s : Ct.Slot) => [s.data, s.refered, s.ttl])), y.2)) =
    .ok ([⟨1, none, []⟩, ⟨1, none, []⟩, ⟨-1, none, []⟩], [11], [[[1, 5, 200000000], [2, 7, 200000000]]],
      [⟨-1, none, []⟩, ⟨-1, none, []⟩, ⟨-1, none, []⟩, ⟨0, none, []⟩]) := by decide +kernel

/-- Not covered by C31: a fragment that is refused because it is larger than the mtu does not stop the others. -/
example : (do
    let x ← run (create 1 1 2 1500 200 true) [.frag 5 (ftKey 1) 11 100 true 1, .frag 7 (ftKey 1) 12 1501 true 1, .first 9 (ftKey 1) 7 true]
    return x.2) = .ok [⟨1, none, []⟩, ⟨-1, none, []⟩, ⟨0, none, [11]⟩] := by decide +kernel

/-! ### C32: the ttl -/

/-- The ttl that a table really has: after a first fragment was registered and nothing else happened to the datagram, the value is found exactly until
`t * 1000000` modulo 2^32 nanoseconds later. -/
theorem C32_effective (hsize maxBuckets maxFragments mtu t : Nat) (reass : Bool) (hpos : 0 < hsize) (pre mid : List Op)
    (now later : Nat) (k : Key) (v : Int) (newOk : Bool) (ht : Timed 0 (pre ++ .first now k v newOk :: (mid ++ [.get later k])))
    (hmid : ∀ o ∈ mid, keyOf o ≠ some k) :
    ∃ ft r1 ft1 o ft2 r2 ft3 o3, run (create hsize maxBuckets maxFragments mtu t reass) pre = .ok (ft, r1) ∧
      step ft (.first now k v newOk) = .ok (ft1, o) ∧ run ft1 mid = .ok (ft2, r2) ∧ step ft2 (.get later k) = .ok (ft3, o3) ∧
      (o.rc = 0 → (o3.rc = 0 ↔ later ≤ now + t * 1000000 % 4294967296)) := by
  obtain ⟨h1, h2⟩ := (timed_append pre _ 0).1 ht
  obtain ⟨h3, h4, h5⟩ := h2
  obtain ⟨h6, h7, h8, -⟩ := (timed_append mid _ _).1 h5
  obtain ⟨ft, r1, e1, -, i1, -, -⟩ := run_spec pre (create_finv hpos) h1
  obtain ⟨ft1, o, e2, st⟩ := step_all i1 _ h3
  obtain ⟨ft2, r2, e3, hl, i2, -, -⟩ := run_spec mid st.inv h6
  obtain ⟨ft3, o3, e4, st3⟩ := step_all i2 _ h7
  refine ⟨ft, r1, ft1, o, ft2, r2, ft3, o3, e1, e2, e3, e4, ?_⟩
  intro hrc
  have hv := keeps_run (last := now) k mid st.inv h6 hmid (e := ⟨now, .hashValid, v, []⟩) (keeps_start (view_first st hrc)) rfl e3
  have hv' := Keeps.advance (last := now) (e := ⟨now, .hashValid, v, []⟩) i2 h7 h8 rfl hv
  have hself := st3.self k rfl
  unfold Keeps at hv'
  rw [hv'] at hself
  by_cases hle : later ≤ now + t * 1000000 % 4294967296
  · have hle' : timeOf (.get later k) ≤ now + u32 (t * ms) := hle
    rw [if_pos hle'] at hself
    generalize view ft3 (timeOf (.get later k)) k = b at hself
    generalize ha : some (Entry.mk now .hashValid v []) = a at hself
    cases hself with
    | getOk _ => simp [hle]
    | getNone => simp at ha
    | getRefuse hne => cases ha; exact absurd rfl hne
  · have hle' : ¬ timeOf (.get later k) ≤ now + u32 (t * ms) := hle
    rw [if_neg hle'] at hself
    generalize view ft3 (timeOf (.get later k)) k = b at hself
    generalize ha : (none : Option Entry) = a at hself
    cases hself with
    | getNone => simp [hle]
    | getOk _ => simp at ha
    | getRefuse hne => simp at ha

/-- C32, partial: a table created with a timeout of `t` milliseconds keeps the entries for `t` milliseconds.
Missing: timeouts of more than 4294 ms, see `C32_violated`. -/
theorem C32_ttl_partial (hsize maxBuckets maxFragments mtu t : Nat) (hmax : t ≤ 4294) (reass : Bool) (hpos : 0 < hsize) (pre mid : List Op)
    (now later : Nat) (k : Key) (v : Int) (newOk : Bool) (ht : Timed 0 (pre ++ .first now k v newOk :: (mid ++ [.get later k])))
    (hmid : ∀ o ∈ mid, keyOf o ≠ some k) :
    ∃ ft r1 ft1 o ft2 r2 ft3 o3, run (create hsize maxBuckets maxFragments mtu t reass) pre = .ok (ft, r1) ∧
      step ft (.first now k v newOk) = .ok (ft1, o) ∧ run ft1 mid = .ok (ft2, r2) ∧ step ft2 (.get later k) = .ok (ft3, o3) ∧
      (o.rc = 0 → (o3.rc = 0 ↔ later ≤ now + t * 1000000)) := by
  have := C32_effective hsize maxBuckets maxFragments mtu t reass hpos pre mid now later k v newOk ht hmid
  rw [show t * 1000000 % 4294967296 = t * 1000000 by omega] at this
  exact this

/-- A case that meets the hypotheses, with an operation in between. -/
example : Timed 0 ([] ++ .first 5 (ftKey 1) 7 true :: ([.frag 6 (ftKey 2) 1 100 true 1] ++ [.get 200000005 (ftKey 1)])) ∧
    (∀ o ∈ [Op.frag 6 (ftKey 2) 1 100 true 1], keyOf o ≠ some (ftKey 1)) := by
  refine ⟨by simp [Timed, timeOf], ?_⟩
  intro o ho
  simp only [List.mem_singleton] at ho
  subst ho
  decide

example : (do
    let x ← run (create 1 1 2 1500 200 true) [.first 5 (ftKey 1) 7 true, .frag 6 (ftKey 2) 1 100 true 1, .get 200000005 (ftKey 1), .get 400000006 (ftKey 1)]
    return x.2) = .ok [⟨0, none, []⟩, ⟨1, none, []⟩, ⟨0, some 7, []⟩, ⟨-1, none, []⟩] := by decide +kernel

/-- C32 is violated: for every timeout of more than 4294 ms the value is lost before the timeout, one nanosecond after `t * 1000000` modulo 2^32. -/
theorem C32_violated (hsize maxBuckets maxFragments mtu t : Nat) (hmin : 4294 < t) (reass : Bool) (hpos : 0 < hsize) (pre : List Op)
    (now : Nat) (k : Key) (v : Int) (newOk : Bool) (ht : Timed 0 (pre ++ [.first now k v newOk])) (hnow : now + 4294967296 < 2 ^ 64) :
    ∃ later ft r1 ft1 o ft3 o3, later ≤ now + t * 1000000 ∧ run (create hsize maxBuckets maxFragments mtu t reass) pre = .ok (ft, r1) ∧
      step ft (.first now k v newOk) = .ok (ft1, o) ∧ step ft1 (.get later k) = .ok (ft3, o3) ∧
      (o.rc = 0 → o3.rc ≠ 0) := by
  have hlt : t * 1000000 % 4294967296 < 4294967296 := Nat.mod_lt _ (by omega)
  obtain ⟨ha, hb, hc, -⟩ := (timed_append pre _ 0).1 ht
  have ht' : Timed 0 (pre ++ .first now k v newOk :: ([] ++ [.get (now + t * 1000000 % 4294967296 + 1) k])) := by
    rw [timed_append]
    refine ⟨ha, hb, hc, ?_, ?_, trivial⟩
    · show now ≤ _
      simp only [timeOf]
      omega
    · simp only [timeOf]
      omega
  obtain ⟨ft, r1, ft1, o, ft2, r2, ft3, o3, e1, e2, e3, e4, e5⟩ :=
    C32_effective hsize maxBuckets maxFragments mtu t reass hpos pre [] now (now + t * 1000000 % 4294967296 + 1) k v newOk ht' (by simp)
  simp only [run, Res.ok.injEq, Prod.mk.injEq] at e3
  obtain ⟨rfl, rfl⟩ := e3
  refine ⟨_, ft, r1, ft1, o, ft3, o3, ?_, e1, e2, e4, ?_⟩
  · omega
  · intro h h'
    have := (e5 h).1 h'
    omega

/-- A case: with a timeout of 5 seconds the value is lost after 0.71 seconds. -/
example : (do
    let x ← run (create 1 1 2 1500 5000 true) [.first 0 (ftKey 1) 7 true, .get 705032705 (ftKey 1)]
    return x.2) = .ok [⟨0, none, []⟩, ⟨-1, none, []⟩] := by decide +kernel

end Nfqlb.Props
