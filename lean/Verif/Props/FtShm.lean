import Verif.Proof.FtShm
import Verif.Proof.Session

/-! C101: statistics in shared memory. -/

set_option autoImplicit false

namespace Nfqlb.Props

open Nfqlb Nfqlb.FtShm Nfqlb.Report Nfqlb.Spec.FtShm

theorem ftRun_append (a b : List Ev) (s : Sys) : FtShm.run s (a ++ b) = (do let s ← FtShm.run s a; FtShm.run s b) := by
  induction a generalizing s with
  | nil => rfl
  | cons e a ih =>
    rw [List.cons_append, FtShm.run, FtShm.run]
    cases h : FtShm.step s e with
    | ok s1 => rw [Res.ok_bind, Res.ok_bind]; exact ih s1
    | die => rfl
    | ub => rfl
    | hang => rfl

theorem parse_stats (cmd shm : List Char) : ∃ vars n, Cmd.parseOrDie statsOpts [cmd, "--ft_shm=".toList ++ shm] = .ok (vars, n) ∧ Cmd.valueOf vars "ft_shm".toList = some shm := by
  obtain ⟨vars, n, h1, h2, -⟩ := Session.parse_items statsOpts (by decide) (by unfold Spec.Cmd.GoodNames; decide +kernel) [.eq 1 shm]
    (by
      intro it hit
      simp only [List.mem_singleton] at hit
      subst hit
      exact ⟨Cmd.row "ft_shm" (some "ftshm"), rfl, rfl⟩)
    (by
      intro i a h
      have : i = 1 := by simp [Spec.Cmd.Item.got] at h; exact h.1
      subst this
      decide)
    (by rfl) cmd
  exact ⟨vars, n, h1, h2 1 (Cmd.row "ft_shm" (some "ftshm")) rfl⟩

/-- **C101, partial.** If no two load-balancers are started with the same `--ft_shm`: nothing undefined happens and no program ends, in whatever order they start and work, and each finds every key in its own buckets, by its own size.
Missing: load-balancers with the same name, see `C101_violated`. -/
theorem C101_alone_partial (evs : List Ev) (hp : Private evs) :
    ∃ s, FtShm.run init evs = .ok s ∧ ∀ p n c, s.proc p = .running n c →
      ∃ st, s.mem n = some (some st) ∧ st.size = c.size ∧ ∀ hash, hash % st.size < c.size ∧ FtShm.step s (.bucket p hash) = .ok s := by
  obtain ⟨s, h, hi⟩ := run_inv hp evs init (inv_init evs) (fun e he => he)
  refine ⟨s, h, fun p n c hr => ?_⟩
  obtain ⟨st, hm, hs⟩ := hi.running p n c hr
  have hpos := hp.2 p n c (hi.known p n c (.inr (.inr hr)))
  refine ⟨st, hm, hs.1, fun hash => ?_⟩
  have hlt : hash % st.size < c.size := by rw [hs.1]; exact Nat.mod_lt _ hpos
  refine ⟨hlt, ?_⟩
  unfold FtShm.step
  dsimp only
  rw [hr]
  dsimp only
  rw [hm]
  dsimp only
  rw [if_neg (by rw [hs.1]; omega), if_pos hlt]

/-- **C101, partial.** Under the same condition, `nfqlb stats` with the name of a load-balancer prints the sizes of its table, and for each counter how often this load-balancer has incremented it since it uses the memory, modulo 2^32;
others do not count. Missing: as above. -/
theorem C101_stats_partial (pre post : List Ev) (p : Nat) (n : List Char) (c : Config) (s0 : Sys) (hp : Private (pre ++ .use p :: post)) (h0 : FtShm.run init pre = .ok s0) (hz : s0.proc p = .zeroed n c) :
    ∃ s st, FtShm.run init (pre ++ .use p :: post) = .ok s ∧ FtShm.stats s ["stats".toList, "--ft_shm=".toList ++ n] = .ok (fragPrintStats st) ∧
      st.size = c.size ∧ st.ttlNanos = c.ttlNanos ∧ st.mtu = c.mtu ∧ st.bucketsMax = c.bucketsMax ∧ st.fragsMax = c.fragsMax ∧
      ∀ k, value st k = post.count (.count p k) % 2 ^ 32 := by
  obtain ⟨s0', h0', i0⟩ := run_inv hp pre init (inv_init _) (fun e he => by simp [he])
  rw [h0] at h0'
  cases h0'
  obtain ⟨st0, hm0⟩ := i0.zeroed p n c hz
  obtain ⟨s1, h1, i1⟩ := step_inv hp i0 (.use p) (by simp)
  have hs1 : s1 = (s0.put n (some (fresh c))).go p (.running n c) := by
    unfold FtShm.step at h1
    dsimp only at h1
    rw [hz] at h1
    dsimp only at h1
    rw [hm0] at h1
    exact (Res.ok.inj h1).symm
  have r1 : s1.proc p = .running n c := by rw [hs1, go_proc, if_pos rfl]
  have m1 : s1.mem n = some (some (fresh c)) := by rw [hs1, go_mem, put_mem, if_pos rfl]
  obtain ⟨s2, h2, i2⟩ := run_inv hp post s1 i1 (fun e he => by simp [he])
  obtain ⟨r2, st, m2, v2⟩ := run_counts hp post s1 s2 (fresh c) i1 (fun e he => by simp [he]) r1 m1 h2
  obtain ⟨st', m2', hs⟩ := i2.running p n c r2
  rw [m2] at m2'
  cases m2'
  refine ⟨s2, st, ?_, ?_, hs.1, hs.2.1, hs.2.2.1, hs.2.2.2.1, hs.2.2.2.2, fun k => ?_⟩
  · rw [ftRun_append, h0, Res.ok_bind, FtShm.run, h1, Res.ok_bind, h2]
  · obtain ⟨vars, m, e1, e2⟩ := parse_stats "stats".toList n
    unfold FtShm.stats
    rw [e1, Res.ok_bind]
    dsimp only
    rw [e2]
    dsimp only
    rw [m2]
  · obtain ⟨w1, w2⟩ := v2 k
    have hv : value (fresh c) k = 0 := by cases k <;> rfl
    rw [hv] at w1 w2
    have := w2 (by decide)
    rw [Nat.mod_eq_of_lt this] at w1
    rw [w1, Nat.zero_add]

/-- A table for the examples. -/
def ftCfg (size : Nat) : Config := ⟨size, 200000000, 1500, 500, 100⟩

/-- Two load-balancers with names of their own that overlap. -/
def ftHist : List Ev := [.start 1 "a".toList (ftCfg 500), .zero 1, .start 2 "b".toList (ftCfg 7)]

example : Private (ftHist ++ .use 1 :: [.zero 2, .count 1 .lookups, .use 2, .count 2 .lookups, .bucket 1 499, .count 1 .lookups]) ∧
    (∃ s0, FtShm.run init ftHist = .ok s0 ∧ s0.proc 1 = .zeroed "a".toList (ftCfg 500)) ∧
    (do
      let s ← FtShm.run init (ftHist ++ .use 1 :: [.zero 2, .count 1 .lookups, .use 2, .count 2 .lookups, .bucket 1 499, .count 1 .lookups])
      return (s.mem "a".toList, s.mem "b".toList)) = Res.ok (some (some { fresh (ftCfg 500) with lookups := 2 }), some (some { fresh (ftCfg 7) with lookups := 1 })) := by
  refine ⟨⟨?_, ?_⟩, ⟨_, rfl, rfl⟩, by decide +kernel⟩
  · intro p q n c d h1 h2
    simp only [ftHist, List.cons_append, List.nil_append, List.mem_cons, List.not_mem_nil, or_false, reduceCtorEq, false_or, Ev.start.injEq] at h1 h2
    rcases h1 with ⟨rfl, rfl, -⟩ | ⟨rfl, rfl, -⟩ <;> rcases h2 with ⟨rfl, h, -⟩ | ⟨rfl, h, -⟩ <;> first | rfl | (exfalso; revert h; decide)
  · intro p n c h
    simp only [ftHist, List.cons_append, List.nil_append, List.mem_cons, List.not_mem_nil, or_false, reduceCtorEq, false_or, Ev.start.injEq] at h
    rcases h with ⟨-, -, rfl⟩ | ⟨-, -, rfl⟩ <;> decide

/-- **C101.** When looking for a bucket is undefined, exactly, in any state: the size in the memory is 0, or the remainder by it is not less than the number of the own buckets. -/
theorem C101_exact (s : Sys) (p hash : Nat) :
    FtShm.step s (.bucket p hash) = .ub ↔ ∃ n c st, s.proc p = .running n c ∧ s.mem n = some (some st) ∧ (st.size = 0 ∨ c.size ≤ hash % st.size) := by
  unfold FtShm.step
  dsimp only
  cases hx : s.proc p with
  | running n c =>
    dsimp only
    cases hm : s.mem n with
    | none =>
      refine ⟨fun h => (by cases h), ?_⟩
      rintro ⟨n', c', st, h, h', -⟩
      cases h
      rw [hm] at h'
      cases h'
    | some x =>
      cases x with
      | none =>
        refine ⟨fun h => (by cases h), ?_⟩
        rintro ⟨n', c', st, h, h', -⟩
        cases h
        rw [hm] at h'
        cases h'
      | some st =>
        dsimp only
        have hiff : (∃ n' c' st', Proc.running n c = .running n' c' ∧ s.mem n' = some (some st') ∧ (st'.size = 0 ∨ c'.size ≤ hash % st'.size)) ↔ (st.size = 0 ∨ c.size ≤ hash % st.size) := by
          constructor
          · rintro ⟨n', c', st', h, h', h''⟩
            cases h
            rw [hm] at h'
            cases h'
            exact h''
          · intro h
            exact ⟨n, c, st, rfl, hm, h⟩
        rw [hiff]
        by_cases h0 : st.size = 0
        · rw [if_pos h0]
          exact ⟨fun _ => .inl h0, fun _ => rfl⟩
        · rw [if_neg h0]
          by_cases h1 : hash % st.size < c.size
          · rw [if_pos h1]
            refine ⟨fun h => (by cases h), fun h => ?_⟩
            rcases h with h | h
            · exact absurd h h0
            · omega
          · rw [if_neg h1]
            exact ⟨fun _ => .inr (by omega), fun _ => rfl⟩
  | _ =>
    refine ⟨fun h => (by cases h), ?_⟩
    rintro ⟨_, _, _, h, -⟩
    cases h

/-- The start of a load-balancer without interruption. -/
def ftStart (p : Nat) (n : List Char) (c : Config) : List Ev := [.start p n c, .zero p, .use p]

/-- **C101 fails** for two load-balancers with the same `--ft_shm`, for all names and sizes:
1. a packet that the first one handles while the second one starts: a division by 0;
2. after the start of the second one, if its table is larger: the first one takes a bucket behind the end of its own, for every key whose hash is large enough;
3. the counters of the first one are lost, and afterwards both count in the same place;
4. if the first one counts something right after the second one has opened the memory it ends with SIGBUS;
5. and `lb` and `flowlb` have the same default name. -/
theorem C101_violated (n : List Char) (c d : Config) :
    (∀ hash, FtShm.run init (ftStart 1 n c ++ [.start 2 n d, .zero 2, .bucket 1 hash]) = .ub) ∧
    (∀ hash, c.size ≤ hash % d.size → FtShm.run init (ftStart 1 n c ++ ftStart 2 n d ++ [.bucket 1 hash]) = .ub) ∧
    (∃ s, FtShm.run init (ftStart 1 n c ++ [.count 1 .lookups] ++ ftStart 2 n d) = .ok s ∧ s.mem n = some (some (fresh d))) ∧
    (∀ k, FtShm.run init (ftStart 1 n c ++ [.start 2 n d, .count 1 k]) = .die) ∧
    (∀ o ∈ [Cmd.lbOpts, Cmd.flowLbOpts], (do let (vars, _) ← Cmd.parseOrDie o ["lb".toList]; return Cmd.valueOf vars "ft_shm".toList) = Res.ok (some "ftshm".toList)) := by
  refine ⟨?_, ?_, ?_, ?_, by decide +kernel⟩
  · intro hash
    simp [ftStart, FtShm.run, FtShm.step, init, Sys.put, Sys.go, zeros]
  · intro hash h
    by_cases h0 : d.size = 0
    · simp [ftStart, FtShm.run, FtShm.step, init, Sys.put, Sys.go, zeros, fresh, h0]
    · simp [ftStart, FtShm.run, FtShm.step, init, Sys.put, Sys.go, zeros, fresh, h0, Nat.not_lt.2 h]
  · simp [ftStart, FtShm.run, FtShm.step, init, Sys.put, Sys.go, zeros, fresh, bump]
  · intro k
    simp [ftStart, FtShm.run, FtShm.step, init, Sys.put, Sys.go, zeros]

example : (ftCfg 500).size ≤ 700 % (ftCfg 1000).size := by decide

/-- **C101.** Before a load-balancer has been started with the name, and while one has just opened the memory, `nfqlb stats` ends without output. -/
theorem C101_none (s : Sys) (n : List Char) (h : s.mem n = none ∨ s.mem n = some none) : FtShm.stats s ["stats".toList, "--ft_shm=".toList ++ n] = .die := by
  obtain ⟨vars, m, e1, e2⟩ := parse_stats "stats".toList n
  unfold FtShm.stats
  rw [e1, Res.ok_bind]
  dsimp only
  rw [e2]
  dsimp only
  rcases h with h | h <;> rw [h]

/-- **C101.** Without the option it is the default name of the load-balancers. -/
theorem C101_default (s : Sys) : FtShm.stats s ["stats".toList] = FtShm.stats s ["stats".toList, "--ft_shm=".toList ++ "ftshm".toList] := by
  obtain ⟨vars, m, e1, e2⟩ := parse_stats "stats".toList "ftshm".toList
  have h : (do let (vars, _) ← Cmd.parseOrDie statsOpts ["stats".toList]; return Cmd.valueOf vars "ft_shm".toList) = Res.ok (some "ftshm".toList) := by decide +kernel
  unfold FtShm.stats
  rw [e1, Res.ok_bind]
  dsimp only
  rw [e2]
  cases hp : Cmd.parseOrDie statsOpts ["stats".toList] with
  | ok x =>
    obtain ⟨v, k⟩ := x
    rw [hp, Res.ok_bind] at h
    have h' : Cmd.valueOf v "ft_shm".toList = some "ftshm".toList := Res.ok.inj h
    rw [Res.ok_bind]
    dsimp only
    rw [h']
  | die => rw [hp] at h; cases h
  | ub => rw [hp] at h; cases h
  | hang => rw [hp] at h; cases h

example : init.mem "ftshm".toList = none := rfl

end Nfqlb.Props
