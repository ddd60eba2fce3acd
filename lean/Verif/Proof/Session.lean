import Verif.Model.Session
import Verif.Spec.Session
import Verif.Props.Cmd
import Verif.Props.Options
import Verif.Props.Prime
import Verif.Proof.MaglevSet
import Verif.Proof.Report
import Verif.Proof.Start

/-! Sessions with command lines. -/

set_option autoImplicit false

namespace Nfqlb.Session

open Nfqlb Nfqlb.Cmd Nfqlb.Maglev Nfqlb.Spec Nfqlb.Spec.Cmd Nfqlb.Spec.Session

/-- The words among the items. -/
def itemWords (items : List Item) : List Str := items.filterMap (fun it => match it with | .word w => some w | _ => none)

theorem parse_missing (opts : List Opt) (hl : opts.length ≤ 31) (hg : GoodNames opts) (items : List Item) (hw : ∀ it ∈ items, it.WF opts)
    (hh : NoHelp opts (items.filterMap Item.got)) (hm : missing opts (items.filterMap Item.got) ≠ []) (cmd : Str) :
    parseOrDie opts (cmd :: (items.map (Item.render opts)).flatten) = .die := by
  obtain ⟨p, h1, h2, -⟩ := Props.C56_argv_partial opts hl hg items hw hh cmd
  unfold parseOrDie
  rw [h1, Res.ok_bind]
  rw [if_neg (by rw [h2.2 hm]; decide)]

theorem parse_items (opts : List Opt) (hl : opts.length ≤ 31) (hg : GoodNames opts) (items : List Item) (hw : ∀ it ∈ items, it.WF opts)
    (hh : NoHelp opts (items.filterMap Item.got)) (hm : missing opts (items.filterMap Item.got) = []) (cmd : Str) :
    ∃ vars n, parseOrDie opts (cmd :: (items.map (Item.render opts)).flatten) = .ok (vars, n) ∧
      (∀ (i : Nat) (o : Opt), opts[i]? = some o → valueOf vars o.name = (finalArg opts (items.filterMap Item.got) i).join) ∧
      words opts (cmd :: (items.map (Item.render opts)).flatten) = itemWords items := by
  obtain ⟨p, h1, h2, -, -, h5⟩ := Props.C56_argv_partial opts hl hg items hw hh cmd
  have hrc : p.rc ≠ -1 := fun e => (h2.1 e) hm
  have h6 := h5 hrc
  have hlen : items.length ≤ ((items.map (Item.render opts)).flatten).length := by
    clear h5 h6 h1 h2 hh hm hw
    induction items with
    | nil => simp
    | cons x l ih => cases x <;> simp [Item.render] at ih ⊢ <;> omega
  rw [List.length_cons] at h6
  have key : ∀ (k L : Nat), p.rc + (k : Int) = ((L + 1 : Nat) : Int) → k ≤ L → 0 < p.rc := by intros; omega
  have hpos : 0 < p.rc := key _ _ h6 (Nat.le_trans (List.length_filter_le _ _) hlen)
  have he : parseOrDie opts (cmd :: (items.map (Item.render opts)).flatten) = .ok (p.vars, p.rc.toNat) := by
    unfold parseOrDie
    rw [h1, Res.ok_bind, if_pos hpos]
    rfl
  have hi := getopt_items opts hg items hw
  refine ⟨p.vars, p.rc.toNat, he, fun i o ho => ?_, ?_⟩
  · rw [value_index hg.1 he ho]
    simp only [List.tail_cons, hi]
  · unfold words
    simp only [List.tail_cons, hi]
    rfl

theorem dec_head (n : Nat) : (Spec.Session.dec n).head? ≠ some '-' := by
  obtain ⟨c, t, e, hc⟩ := Spec.J.digits_head n
  unfold Spec.Session.dec
  rw [e]
  intro h
  simp only [List.head?_cons, Option.some.injEq] at h
  subst h
  exact absurd hc (by decide)

theorem atoi_dec {n : Nat} (h : n ≤ 2147483647) : Remote.atoi (Spec.Session.dec n) = n := Addr.atoi_digits n h

theorem good_init : GoodNames initOpts := by unfold GoodNames; decide +kernel
theorem good_act : GoodNames activateOpts := by unfold GoodNames; decide +kernel
theorem good_del : GoodNames [helpOpt, row "shm" none true] := by unfold GoodNames; decide +kernel

/-! ### The command lines as items -/

theorem words_got (marks : List Nat) : (marks.map (fun m => Item.word (Spec.Session.dec m))).filterMap Item.got = [] := by
  induction marks with
  | nil => rfl
  | cons m ms ih => simp [Item.got]

theorem words_words (marks : List Nat) : itemWords (marks.map (fun m => Item.word (Spec.Session.dec m))) = marks.map Spec.Session.dec := by
  unfold itemWords
  induction marks with
  | nil => rfl
  | cons m ms ih => simp

theorem words_render (opts : List Opt) (marks : List Nat) : ((marks.map (fun m => Item.word (Spec.Session.dec m))).map (Item.render opts)).flatten = marks.map Spec.Session.dec := by
  induction marks with
  | nil => rfl
  | cons m ms ih => simp only [List.map_cons, List.flatten_cons, ih, Item.render, List.singleton_append]

/-- `activate` and `deactivate` of marks. -/
theorem parse_config (cmd shm : Str) (marks : List Nat) : ∃ vars n, parseOrDie activateOpts (cmd :: ("--shm=".toList ++ shm) :: marks.map Spec.Session.dec) = .ok (vars, n) ∧
    valueOf vars "shm".toList = some shm ∧ valueOf vars "index".toList = none ∧
    words activateOpts (cmd :: ("--shm=".toList ++ shm) :: marks.map Spec.Session.dec) = marks.map Spec.Session.dec := by
  have hgot : (Item.eq 1 shm :: marks.map (fun m => Item.word (Spec.Session.dec m))).filterMap Item.got = [.opt 1 (some shm)] := by
    rw [List.filterMap_cons]
    simp only [Item.got]
    rw [words_got]
  obtain ⟨vars, n, h1, h2, h3⟩ := parse_items activateOpts (by decide) good_act (Item.eq 1 shm :: marks.map (fun m => Item.word (Spec.Session.dec m)))
    (by
      intro it hit
      rcases List.mem_cons.1 hit with rfl | hit
      · exact ⟨row "shm" (some "nfqlb"), rfl, rfl⟩
      · obtain ⟨m, _, rfl⟩ := List.mem_map.1 hit
        exact Or.inl (dec_head m))
    (by
      rw [hgot]
      intro i a h
      simp only [List.mem_singleton, Got.opt.injEq] at h
      obtain ⟨rfl, _⟩ := h
      decide)
    (by rw [hgot]; rfl) cmd
  have er : ((Item.eq 1 shm :: marks.map (fun m => Item.word (Spec.Session.dec m))).map (Item.render activateOpts)).flatten = ("--shm=".toList ++ shm) :: marks.map Spec.Session.dec := by
    rw [List.map_cons, List.flatten_cons, words_render]
    rfl
  rw [er] at h1 h3
  refine ⟨vars, n, h1, ?_, ?_, ?_⟩
  · have := h2 1 (row "shm" (some "nfqlb")) rfl
    rw [hgot] at this
    exact this
  · have := h2 2 (row "index" none) rfl
    rw [hgot] at this
    exact this
  · rw [h3]
    have : itemWords (Item.eq 1 shm :: marks.map (fun m => Item.word (Spec.Session.dec m))) = itemWords (marks.map (fun m => Item.word (Spec.Session.dec m))) := rfl
    rw [this, words_words]

theorem parse_delete (cmd shm : Str) : ∃ vars n, parseOrDie [helpOpt, row "shm" none true] [cmd, "--shm=".toList ++ shm] = .ok (vars, n) ∧ valueOf vars "shm".toList = some shm := by
  obtain ⟨vars, n, h1, h2, -⟩ := parse_items [helpOpt, row "shm" none true] (by decide) good_del [Item.eq 1 shm]
    (by
      intro it hit
      simp only [List.mem_singleton] at hit
      subst hit
      exact ⟨row "shm" none true, rfl, rfl⟩)
    (by
      intro i a h
      have : i = 1 := by simp [Item.got] at h; exact h.1
      subst this
      decide)
    (by rfl) cmd
  exact ⟨vars, n, h1, h2 1 (row "shm" none true) rfl⟩

theorem parse_show (cmd shm : Str) : ∃ vars n, parseOrDie [helpOpt, row "shm" (some "nfqlb")] [cmd, "--shm=".toList ++ shm] = .ok (vars, n) ∧ valueOf vars "shm".toList = some shm := by
  obtain ⟨vars, n, h1, h2, -⟩ := parse_items [helpOpt, row "shm" (some "nfqlb")] (by decide) (by unfold GoodNames; decide +kernel) [Item.eq 1 shm]
    (by
      intro it hit
      simp only [List.mem_singleton] at hit
      subst hit
      exact ⟨row "shm" (some "nfqlb"), rfl, rfl⟩)
    (by
      intro i a h
      have : i = 1 := by simp [Item.got] at h; exact h.1
      subst this
      decide)
    (by rfl) cmd
  exact ⟨vars, n, h1, h2 1 (row "shm" (some "nfqlb")) rfl⟩

theorem parse_init (cmd shm own M N : Str) : ∃ vars n, parseOrDie initOpts [cmd, "--shm=".toList ++ shm, "--ownfw=".toList ++ own, "--M=".toList ++ M, "--N=".toList ++ N] = .ok (vars, n) ∧
    valueOf vars "shm".toList = some shm ∧ valueOf vars "ownfw".toList = some own ∧ valueOf vars "M".toList = some M ∧ valueOf vars "N".toList = some N := by
  obtain ⟨vars, n, h1, h2, -⟩ := parse_items initOpts (by decide) good_init [Item.eq 2 shm, Item.eq 1 own, Item.eq 4 M, Item.eq 3 N]
    (by
      intro it hit
      simp only [List.mem_cons, List.not_mem_nil, or_false] at hit
      rcases hit with rfl | rfl | rfl | rfl
      · exact ⟨row "shm" (some "nfqlb"), rfl, rfl⟩
      · exact ⟨row "ownfw" (some "0"), rfl, rfl⟩
      · exact ⟨row "M" (some "997"), rfl, rfl⟩
      · exact ⟨row "N" (some "32"), rfl, rfl⟩)
    (by
      intro i a h
      have : i = 2 ∨ i = 1 ∨ i = 4 ∨ i = 3 := by
        simp [Item.got] at h
        rcases h with h | h | h | h
        · exact Or.inl h.1
        · exact Or.inr (Or.inl h.1)
        · exact Or.inr (Or.inr (Or.inl h.1))
        · exact Or.inr (Or.inr (Or.inr h.1))
      rcases this with rfl | rfl | rfl | rfl <;> decide)
    (by rfl) cmd
  exact ⟨vars, n, h1, h2 2 (row "shm" (some "nfqlb")) rfl, h2 1 (row "ownfw" (some "0")) rfl, h2 4 (row "M" (some "997")) rfl, h2 3 (row "N" (some "32")) rfl⟩

theorem uns_nat {n : Nat} (h : n ≤ 2147483647) : Start.uns (n : Int) = n := by
  unfold Start.uns
  omega

/-! ### One line -/

/-- The tables of a shared memory object are those of a load-balancer. -/
structure Is (s : Shared) (lb : Lb) : Prop where
  own : s.own = lb.own
  m : s.mag.M = lb.M
  n : s.mag.N = lb.N
  targets : activeMarks s.mag.active = lb.targets
  nodup : NoDuplicates s.mag.active
  inv : MagInv s.mag
  rows : ∀ i, i < s.mag.N → ∃ row, s.mag.perm[i]? = some row ∧ IsPermutationRow s.mag.M row
  m31 : s.mag.M < 2147483648
  n31 : s.mag.N < 2147483648

/-- The store has exactly these load-balancers. -/
def Has (w : Store) (S : Lbs) : Prop := ∀ k, (w k = none ∧ S k = none) ∨ ∃ s lb, w k = some s ∧ S k = some lb ∧ Is s lb

theorem Has.put {w : Store} {S : Lbs} (h : Has w S) {k : Str} {s : Shared} {lb : Lb} (hi : Is s lb) : Has (put w k (some s)) (set S k (some lb)) := by
  intro j
  unfold Session.put Spec.Session.set
  by_cases hj : j = k
  · rw [if_pos hj, if_pos hj]; exact Or.inr ⟨s, lb, rfl, rfl, hi⟩
  · rw [if_neg hj, if_neg hj]; exact h j

theorem Has.del {w : Store} {S : Lbs} (h : Has w S) (k : Str) : Has (Session.put w k none) (set S k none) := by
  intro j
  unfold Session.put Spec.Session.set
  by_cases hj : j = k
  · rw [if_pos hj, if_pos hj]; exact Or.inl ⟨rfl, rfl⟩
  · rw [if_neg hj, if_neg hj]; exact h j

theorem runMark {s : Shared} {lb : Lb} (h : Is s lb) (c : MarkCmd) :
    ∃ d, runCmd s.mag (ofMark c) = .ok d ∧ Is { s with mag := d } { lb with targets := setRun lb.N lb.targets [c] } := by
  rcases runCmd_inv h.inv (ofMark c) with hc | hc | ⟨d, hc, hi, h1, h2, h3⟩
  · exact absurd hc (runCmd_no_ub h.inv h.rows _)
  · exact absurd hc (runCmd_mark_ne_die h.inv c)
  · have hr : runCmds s.mag ([c].map ofMark) = .ok d := by
      simp only [List.map_cons, List.map_nil, runCmds, hc]
    obtain ⟨g1, g2⟩ := runCmds_set [c] h.inv h.nodup hr
    refine ⟨d, hc, ⟨h.own, h1.trans h.m, h2.trans h.n, ?_, g1, hi, ?_, by rw [h1]; exact h.m31, by rw [h2]; exact h.n31⟩⟩
    · show activeMarks d.active = _
      rw [g2, h.n, h.targets]
    · show ∀ i, i < d.N → _
      rw [h1, h2, h3]
      exact h.rows

/-- What a line does to a store. -/
def Does (nm : Str → Option Str) (rnd : Nat → Nat) (w : Store) (S : Lbs) (l : Line) : Prop :=
  (∃ w' t, line nm rnd w l.argv = .ok (w', t) ∧ Has w' (l.apply S) ∧ l.refused S = false) ∨ (line nm rnd w l.argv = .die ∧ Has w (l.apply S) ∧ l.refused S = true)

theorem config_does {nm : Str → Option Str} {w : Store} {S : Lbs} (h : Has w S) (act : Bool) (cmd shm : Str) (hn : nm shm = some shm) (marks : List Nat)
    (c : MarkCmd) (hc : config act none (marks.map Spec.Session.dec) = ofMark c) :
    (S shm = none ∧ configCmd act nm w (cmd :: ("--shm=".toList ++ shm) :: marks.map Spec.Session.dec) = .die) ∨
    ∃ lb w', S shm = some lb ∧ configCmd act nm w (cmd :: ("--shm=".toList ++ shm) :: marks.map Spec.Session.dec) = .ok (w', []) ∧
      Has w' (set S shm (some { lb with targets := setRun lb.N lb.targets [c] })) := by
  obtain ⟨vars, n, h1, h2, h3, h4⟩ := parse_config cmd shm marks
  unfold configCmd
  rw [h1, Res.ok_bind]
  dsimp only
  unfold mapped
  rw [h2]
  simp only [hn]
  rcases h shm with ⟨e1, e2⟩ | ⟨s, lb, e1, e2, hi⟩
  · left
    refine ⟨e2, ?_⟩
    rw [e1]
    rfl
  · right
    obtain ⟨d, hd, hi'⟩ := runMark hi c
    refine ⟨lb, Session.put w shm (some { s with mag := d }), e2, ?_, h.put hi'⟩
    simp only [e1, Res.ok_bind]
    rw [h3, h4, hc, hd]
    rfl

theorem map_atoi (marks : List Nat) (hm : ∀ m ∈ marks, m ≤ 2147483647) : (marks.map Spec.Session.dec).map Remote.atoi = marks.map (fun (m : Nat) => (m : Int)) := by
  rw [List.map_map]
  exact List.map_congr_left (fun m h => atoi_dec (hm m h))

theorem tableSize_eq {M p : Nat} (hM : M ≤ 65536) (h : adjustM M = .ok p) : tableSize M = p ∧ Nat.Prime p ∧ 3 ≤ p ∧ p ≤ max M 3 := by
  obtain ⟨q, hq, h1, h2, h3, h4, h5⟩ := adjustM_ok M (by omega)
  have hqp : q = p := by rw [h] at hq; injection hq with hq; exact hq.symm
  subst hqp
  have hmax : (if M < 3 then 3 else M) = max M 3 := by split <;> omega
  obtain ⟨r, hr, hr1, hr2, hr3⟩ := Props.C01_primeBelow_largest_prime (max M 3) (by omega) (by omega)
  have : r = q := by
    unfold adjustM at h
    rw [hmax, hr] at h
    injection h
  subst this
  refine ⟨?_, h1, h2, by omega⟩
  unfold tableSize
  rw [Nat.findGreatest_eq_iff]
  refine ⟨by omega, fun _ => h1, fun n hn hn2 hp => ?_⟩
  have := hr3 n hp (by omega)
  omega

theorem line_init (nm : Str → Option Str) (rnd : Nat → Nat) (w : Store) (as : List Str) : line nm rnd w ("init".toList :: as) = init nm rnd w ("init".toList :: as) := by
  unfold line
  dsimp only
  rw [if_pos rfl]

/-- `init` with numbers in range. -/
theorem init_res (nm : Str → Option Str) (rnd : Nat → Nat) (w : Store) (shm : Str) (own M N : Nat) (hr : (Line.init shm own M N).InRange) :
    (tableSize M < N ∧ line nm rnd w (Line.init shm own M N).argv = .die) ∨
    (N ≤ tableSize M ∧ ((nm shm = none ∧ line nm rnd w (Line.init shm own M N).argv = .die) ∨
      ∃ k s t, nm shm = some k ∧ line nm rnd w (Line.init shm own M N).argv = .ok (put w k (some s), t) ∧ Is s ⟨own, tableSize M, N, ∅⟩)) := by
  obtain ⟨r1, r2, r3, r4⟩ := hr
  obtain ⟨vars, n, h1, h2, h3, h4, h5⟩ := parse_init "init".toList shm (Spec.Session.dec own) (Spec.Session.dec M) (Spec.Session.dec N)
  obtain ⟨p, hp, -⟩ := adjustM_ok M (by omega)
  obtain ⟨t1, t2, t3, t4⟩ := tableSize_eq r2 hp
  have eM : Start.num vars "M" = .ok (M : Int) := by unfold Start.num; rw [h4]; exact congrArg Res.ok (atoi_dec (by omega))
  have eN : Start.num vars "N" = .ok (N : Int) := by unfold Start.num; rw [h5]; exact congrArg Res.ok (atoi_dec (by omega))
  have eo : Start.num vars "ownfw" = .ok (own : Int) := by unfold Start.num; rw [h3]; exact congrArg Res.ok (atoi_dec r1)
  have ea : (Line.init shm own M N).argv = "init".toList :: (Line.init shm own M N).argv.tail := rfl
  rw [ea, line_init, ← ea]
  unfold init Line.argv
  rw [h1, Res.ok_bind]
  dsimp only
  rw [eM, Res.ok_bind, uns_nat (by omega), hp, Res.ok_bind, eN, Res.ok_bind, uns_nat r3, t1]
  by_cases hle : N ≤ p
  · right
    refine ⟨hle, ?_⟩
    rw [if_neg (by omega), eo, Res.ok_bind, h2]
    cases hn : nm shm with
    | none => left; simp only [hn]; exact ⟨trivial, trivial⟩
    | some k =>
      right
      simp only [hn]
      have hmul : p * N ≤ 1000000000 := by
        by_cases hM3 : M < 3
        · have : p = 3 := by omega
          subst this
          omega
        · exact Nat.le_trans (Nat.mul_le_mul_right N (show p ≤ M by omega)) r4
      have hd : dataLen p N = headerSize + 4 * (3 + p * N) + 4 * (p + N) := by
        unfold dataLen headerSize u32 u64
        generalize p * N = x at *
        omega
      rw [if_neg (by rw [hd]; simp)]
      obtain ⟨d, hi⟩ := init_ok p N rnd (by omega)
      obtain ⟨i1, i2, i3, i4, i5⟩ := init_inv (by omega) hi
      have hdM : d.M = p := by
        rw [adjustM_idem t2 t3 (by omega)] at i3
        injection i3 with i3; exact i3.symm
      rw [hi]
      refine ⟨k, ⟨own, d⟩, _, rfl, rfl, ⟨rfl, hdM, i2, ?_, ?_, i1, ?_, by show d.M < _; omega, by show d.N < _; omega⟩⟩
      · show activeMarks d.active = ∅
        rw [i5]
        ext x
        rw [mem_activeMarks]
        simp only [Finset.notMem_empty, iff_false, not_and, not_exists]
        intro hx k hk
        have := List.mem_of_getElem? hk
        rw [List.mem_replicate] at this
        omega
      · show NoDuplicates d.active
        rw [i5]
        intro i j fw h0 hi _
        have := List.mem_of_getElem? hi
        rw [List.mem_replicate] at this
        omega
      · show ∀ i, i < d.N → _
        intro i hlt
        rw [i4, hdM]
        exact init_rows t2 t3 (by omega) i (by omega)
  · left
    rw [if_pos (by omega)]
    exact ⟨by omega, rfl⟩

theorem init_does {nm : Str → Option Str} {rnd : Nat → Nat} {w : Store} {S : Lbs} (h : Has w S) (shm : Str) (hn : nm shm = some shm) (own M N : Nat)
    (hr : (Line.init shm own M N).InRange) : Does nm rnd w S (.init shm own M N) := by
  unfold Does Line.apply
  rcases init_res nm rnd w shm own M N hr with ⟨h1, h2⟩ | ⟨h1, ⟨h2, -⟩ | ⟨k, s, t, h2, h3, h4⟩⟩
  · right
    dsimp only
    rw [if_neg (by omega)]
    exact ⟨h2, h, by simp only [Line.refused]; exact decide_eq_true h1⟩
  · rw [hn] at h2; exact absurd h2 (by simp)
  · left
    rw [hn] at h2
    injection h2 with h2
    subst h2
    dsimp only
    rw [if_pos h1]
    exact ⟨_, t, h3, h.put h4, by simp only [Line.refused]; exact decide_eq_false (by omega)⟩

theorem line_does {nm : Str → Option Str} {rnd : Nat → Nat} {w : Store} {S : Lbs} (h : Has w S) (l : Line) (hn : nm l.shm = some l.shm) (hr : l.InRange) : Does nm rnd w S l := by
  cases l with
  | init shm own M N => exact init_does h shm hn own M N hr
  | delete shm =>
    obtain ⟨vars, n, h1, h2⟩ := parse_delete "delete".toList shm
    have el : line nm rnd w (Line.delete shm).argv = delete nm w (Line.delete shm).argv := by
      have : (Line.delete shm).argv = "delete".toList :: (Line.delete shm).argv.tail := rfl
      rw [this]
      unfold line
      dsimp only
      rw [if_neg (by decide), if_pos rfl]
    unfold Does
    rw [el]
    unfold delete Line.argv Line.apply
    rw [h1, Res.ok_bind]
    dsimp only
    rw [h2]
    simp only [show nm shm = some shm from hn]
    exact Or.inl ⟨_, _, rfl, h.del shm, rfl⟩
  | activate shm marks =>
    have el : line nm rnd w (Line.activate shm marks).argv = configCmd true nm w (Line.activate shm marks).argv := by
      have : (Line.activate shm marks).argv = "activate".toList :: (Line.activate shm marks).argv.tail := rfl
      rw [this]
      unfold line
      dsimp only
      rw [if_neg (by decide), if_neg (by decide), if_neg (by decide), if_neg (by decide), if_pos rfl]
    unfold Does
    rw [el]
    unfold Line.argv Line.apply
    rcases config_does (nm := nm) h true "activate".toList shm hn marks (.activate (marks.map (fun (m : Nat) => (m : Int)))) (by
      show Maglev.Cmd.activate _ = Maglev.Cmd.activate _
      rw [map_atoi marks hr]) with ⟨e1, e2⟩ | ⟨lb, w', e1, e2, e3⟩
    · right
      refine ⟨e2, ?_, by simp only [Line.refused, e1]; rfl⟩
      simp only [e1]
      exact h
    · left
      refine ⟨w', [], e2, ?_, by simp only [Line.refused, e1]; rfl⟩
      simp only [e1]
      exact e3
  | deactivate shm marks =>
    have el : line nm rnd w (Line.deactivate shm marks).argv = configCmd false nm w (Line.deactivate shm marks).argv := by
      have : (Line.deactivate shm marks).argv = "deactivate".toList :: (Line.deactivate shm marks).argv.tail := rfl
      rw [this]
      unfold line
      dsimp only
      rw [if_neg (by decide), if_neg (by decide), if_neg (by decide), if_neg (by decide), if_neg (by decide), if_pos rfl]
    unfold Does
    rw [el]
    unfold Line.argv Line.apply
    rcases config_does (nm := nm) h false "deactivate".toList shm hn marks (.deactivate (marks.map (fun (m : Nat) => (m : Int)))) (by
      show Maglev.Cmd.deactivate _ = Maglev.Cmd.deactivate _
      rw [map_atoi marks hr]) with ⟨e1, e2⟩ | ⟨lb, w', e1, e2, e3⟩
    · right
      refine ⟨e2, ?_, by simp only [Line.refused, e1]; rfl⟩
      simp only [e1]
      exact h
    · left
      refine ⟨w', [], e2, ?_, by simp only [Line.refused, e1]; rfl⟩
      simp only [e1]
      exact e3

theorem session_does {nm : Str → Option Str} {rnd : Nat → Nat} : ∀ (ls : List Line) {w : Store} {S : Lbs}, Has w S → (∀ l ∈ ls, nm l.shm = some l.shm ∧ l.InRange) →
    ∃ w' ts, session nm rnd w (ls.map Line.argv) = .ok (w', ts) ∧ Has w' (ls.foldl Line.apply S) ∧ ts.map Option.isNone = refusals S ls
  | [], w, S, h, _ => ⟨w, [], rfl, h, rfl⟩
  | l :: ls, w, S, h, hl => by
    obtain ⟨hn, hr⟩ := hl l (by simp)
    have hd := line_does (rnd := rnd) h l hn hr
    rw [List.map_cons, List.foldl_cons]
    unfold session refusals
    rcases hd with ⟨w', t, e, h', f⟩ | ⟨e, h', f⟩
    · obtain ⟨w2, ts, e2, h2, h3⟩ := session_does (nm := nm) (rnd := rnd) ls h' (fun x hx => hl x (by simp [hx]))
      refine ⟨w2, some t :: ts, ?_, h2, by rw [List.map_cons, h3, f]; rfl⟩
      rw [e]
      dsimp only
      rw [e2]
      rfl
    · obtain ⟨w2, ts, e2, h2, h3⟩ := session_does (nm := nm) (rnd := rnd) ls h' (fun x hx => hl x (by simp [hx]))
      refine ⟨w2, none :: ts, ?_, h2, by rw [List.map_cons, h3, f]; rfl⟩
      rw [e]
      dsimp only
      rw [e2]
      rfl

/-! ### Any command lines -/

/-- Tables that all commands can work with. -/
structure Sound (s : Shared) : Prop where
  inv : MagInv s.mag
  rows : ∀ i, i < s.mag.N → ∃ row, s.mag.perm[i]? = some row ∧ IsPermutationRow s.mag.M row
  m31 : s.mag.M < 2147483648
  n31 : s.mag.N < 2147483648

theorem Is.sound {s : Shared} {lb : Lb} (h : Is s lb) : Sound s := ⟨h.inv, h.rows, h.m31, h.n31⟩

def Safe (w : Store) : Prop := ∀ k s, w k = some s → Sound s

theorem Has.safe {w : Store} {S : Lbs} (h : Has w S) : Safe w := by
  intro k s hs
  rcases h k with ⟨e, -⟩ | ⟨s', lb, e, -, hi⟩
  · rw [e] at hs; exact absurd hs (by simp)
  · rw [e] at hs; injection hs with hs; subst hs; exact hi.sound

theorem Safe.put {w : Store} (h : Safe w) {k : Str} {x : Option Shared} (hx : ∀ s, x = some s → Sound s) : Safe (Session.put w k x) := by
  intro j s hs
  unfold Session.put at hs
  split at hs
  · exact hx s hs
  · exact h j s hs

/-- A line that does no harm: it ends with an error, or with a store that is as good as before. -/
def Harmless (r : Res (Store × List Char)) : Prop := r = .die ∨ ∃ w t, r = .ok (w, t) ∧ Safe w

theorem cmd_parse {name : String} {opts : List Opt} {uses : List Str} (hc : (⟨name.toList, opts, uses⟩ : Command) ∈ commands) (argv : List Str) :
    parseOrDie opts argv = .die ∨ ∃ vars n, parseOrDie opts argv = .ok (vars, n) ∧ ∀ x ∈ uses, ∃ v, valueOf vars x = some v := Props.C75_commands _ hc argv

theorem lookup_len {d : Mag} (h : MagInv d) : d.lookup.length = d.M := by
  by_cases ha : ∃ i, ActiveAt d.active i
  · exact (h.good.1.1 ha).1
  · exact (h.good.1.2 ha).1

theorem delete_harmless (nm : Str → Option Str) {w : Store} (h : Safe w) (argv : List Str) : Harmless (delete nm w argv) := by
  unfold delete
  rcases cmd_parse (name := "delete") (opts := [helpOpt, row "shm" none true]) (uses := ["shm".toList]) (by decide +kernel) argv with e | ⟨vars, n, e, hv⟩
  · left; rw [e]; rfl
  · obtain ⟨shm, hs⟩ := hv _ (List.mem_singleton.2 rfl)
    rw [e, Res.ok_bind]
    dsimp only
    rw [hs]
    dsimp only
    cases nm shm with
    | none => exact Or.inl rfl
    | some k => exact Or.inr ⟨_, _, rfl, h.put (by simp)⟩

theorem mapped_cases (nm : Str → Option Str) {w : Store} (h : Safe w) {vars : List Opt} {shm : Str} (hs : valueOf vars "shm".toList = some shm) :
    mapped nm w vars = .die ∨ ∃ k s, mapped nm w vars = .ok (shm, k, s) ∧ nm shm = some k ∧ Sound s := by
  unfold mapped
  rw [hs]
  dsimp only
  cases hn : nm shm with
  | none => exact Or.inl rfl
  | some k =>
    dsimp only
    cases hw : w k with
    | none => exact Or.inl rfl
    | some s => exact Or.inr ⟨k, s, rfl, rfl, h k s hw⟩

theorem show_harmless (nm : Str → Option Str) {w : Store} (h : Safe w) (argv : List Str) : Harmless (showCmd nm w argv) := by
  unfold showCmd
  rcases cmd_parse (name := "show") (opts := [helpOpt, row "shm" (some "nfqlb")]) (uses := ["shm".toList]) (by decide +kernel) argv with e | ⟨vars, n, e, hv⟩
  · left; rw [e]; rfl
  · obtain ⟨shm, hs⟩ := hv _ (List.mem_singleton.2 rfl)
    rw [e, Res.ok_bind]
    dsimp only
    rcases mapped_cases nm h hs with e | ⟨k, s, e, -, hk⟩
    · left; rw [e]; rfl
    · rw [e, Res.ok_bind]
      dsimp only
      rw [Report.show_eq (lookup_len hk.inv) hk.inv.alen shm s.own]
      exact Or.inr ⟨_, _, rfl, h⟩

theorem config_harmless (act : Bool) (nm : Str → Option Str) {w : Store} (h : Safe w) (argv : List Str) : Harmless (configCmd act nm w argv) := by
  unfold configCmd
  rcases cmd_parse (name := "activate") (opts := activateOpts) (uses := ["shm".toList]) (by decide +kernel) argv with e | ⟨vars, n, e, hv⟩
  · left; rw [e]; rfl
  · obtain ⟨shm, hs⟩ := hv _ (List.mem_singleton.2 rfl)
    rw [e, Res.ok_bind]
    dsimp only
    rcases mapped_cases nm h hs with e | ⟨k, s, e, -, hk⟩
    · left; rw [e]; rfl
    · rw [e, Res.ok_bind]
      dsimp only
      generalize config act (valueOf vars "index".toList) (words activateOpts argv) = c
      rcases runCmd_inv hk.inv c with hc | hc | ⟨d, hc, hi, h1, h2, h3⟩
      · exact absurd hc (runCmd_no_ub hk.inv hk.rows _)
      · left; rw [hc]; rfl
      · rw [hc]
        refine Or.inr ⟨_, _, rfl, h.put (fun x hx => ?_)⟩
        injection hx with hx
        subst hx
        exact ⟨hi, by show ∀ i, i < d.N → _; rw [h1, h2, h3]; exact hk.rows, by show d.M < _; rw [h1]; exact hk.m31, by show d.N < _; rw [h2]; exact hk.n31⟩

theorem uns_lt (x : Int) : Start.uns x < 2 ^ 32 := by unfold Start.uns; omega

theorem prime_harmless {w : Store} (h : Safe w) (argv : List Str) : Harmless (primebelow w argv) := by
  unfold primebelow
  rcases cmd_parse (name := "primebelow") (opts := [helpOpt]) (uses := []) (by decide +kernel) argv with e | ⟨vars, n, e, -⟩
  · left; rw [e]; rfl
  · rw [e, Res.ok_bind]
    cases words [helpOpt] argv with
    | nil => exact Or.inr ⟨_, _, rfl, h⟩
    | cons a as =>
      dsimp only
      by_cases h2 : 2 ≤ Start.uns (Remote.atoi a)
      · obtain ⟨p, hp, -⟩ := Props.C01_primeBelow_largest_prime _ h2 (uns_lt _)
        rw [hp]
        exact Or.inr ⟨_, _, rfl, h⟩
      · rw [Props.C01_primeBelow_dies_below_two _ (by omega)]
        exact Or.inl rfl

theorem line_harmless (nm : Str → Option Str) (rnd : Nat → Nat) {w : Store} (h : Safe w) (argv : List Str)
    (ha : argv.head? ≠ some "init".toList ∨ ∃ l : Line, l.InRange ∧ l.argv = argv) : Harmless (line nm rnd w argv) := by
  by_cases hi : argv.head? = some "init".toList
  · rcases ha with ha | ⟨l, hr, rfl⟩
    · exact absurd hi ha
    · cases l with
      | init shm own M N =>
        rcases init_res nm rnd w shm own M N hr with ⟨-, h2⟩ | ⟨-, ⟨-, h2⟩ | ⟨k, s, t, -, h3, h4⟩⟩
        · exact Or.inl h2
        · exact Or.inl h2
        · exact Or.inr ⟨_, t, h3, h.put (fun x hx => by injection hx with hx; subst hx; exact h4.sound)⟩
      | delete shm => exact absurd hi (by simp [Line.argv])
      | activate shm marks => exact absurd hi (by simp [Line.argv])
      | deactivate shm marks => exact absurd hi (by simp [Line.argv])
  · unfold line
    cases argv with
    | nil => exact Or.inl rfl
    | cons c as =>
      dsimp only
      rw [if_neg (fun e => hi (by rw [e]; rfl))]
      split
      · exact delete_harmless nm h _
      split
      · exact prime_harmless h _
      split
      · exact show_harmless nm h _
      split
      · exact config_harmless true nm h _
      split
      · exact config_harmless false nm h _
      · exact Or.inl rfl

theorem session_harmless (nm : Str → Option Str) (rnd : Nat → Nat) : ∀ (as : List (List Str)) {w : Store}, Safe w →
    (∀ a ∈ as, a.head? ≠ some "init".toList ∨ ∃ l : Line, l.InRange ∧ l.argv = a) → ∃ w' ts, session nm rnd w as = .ok (w', ts) ∧ Safe w' ∧ ts.length = as.length
  | [], w, h, _ => ⟨w, [], rfl, h, rfl⟩
  | a :: as, w, h, ha => by
    have hl := line_harmless nm rnd h a (ha a (by simp))
    unfold session
    rcases hl with e | ⟨w', t, e, h'⟩
    · obtain ⟨w2, ts, e2, h2, h3⟩ := session_harmless nm rnd as h (fun x hx => ha x (by simp [hx]))
      refine ⟨w2, none :: ts, ?_, h2, by simp [h3]⟩
      rw [e]
      dsimp only
      rw [e2]
      rfl
    · obtain ⟨w2, ts, e2, h2, h3⟩ := session_harmless nm rnd as h' (fun x hx => ha x (by simp [hx]))
      refine ⟨w2, some t :: ts, ?_, h2, by simp [h3]⟩
      rw [e]
      dsimp only
      rw [e2]
      rfl

/-! ### What is not named does not change -/

/-- What a command line may change: the object that the value of its option `shm` stands for. -/
def Frame (nm : Str → Option Str) (opts : List Opt) (argv : List Str) (w w' : Store) : Prop :=
  ∃ vars n shm k, parseOrDie opts argv = .ok (vars, n) ∧ valueOf vars "shm".toList = some shm ∧ nm shm = some k ∧ ∀ j, j ≠ k → w' j = w j

theorem put_other (w : Store) (k : Str) (x : Option Shared) (j : Str) (h : j ≠ k) : Session.put w k x j = w j := by
  unfold Session.put
  rw [if_neg h]

theorem init_frame {nm : Str → Option Str} {rnd : Nat → Nat} {w w' : Store} {argv : List Str} {t : List Char} (h : init nm rnd w argv = .ok (w', t)) : Frame nm initOpts argv w w' := by
  unfold init at h
  obtain ⟨⟨vars, n⟩, h1, h⟩ := Server.bind_ok h
  dsimp only at h
  obtain ⟨m, -, h⟩ := Server.bind_ok h
  obtain ⟨p, -, h⟩ := Server.bind_ok h
  obtain ⟨nn, -, h⟩ := Server.bind_ok h
  split at h
  · exact absurd h (by simp)
  obtain ⟨own, -, h⟩ := Server.bind_ok h
  split at h
  · exact absurd h (by simp)
  · rename_i shm hs
    split at h
    · exact absurd h (by simp)
    · rename_i k hk
      split at h
      · exact absurd h (by simp)
      obtain ⟨d, -, h⟩ := Server.bind_ok h
      simp only [Res.pure_eq, Res.ok.injEq, Prod.mk.injEq] at h
      rw [← h.1]
      exact ⟨vars, n, shm, k, h1, hs, hk, put_other _ _ _⟩

theorem delete_frame {nm : Str → Option Str} {w w' : Store} {argv : List Str} {t : List Char} (h : delete nm w argv = .ok (w', t)) : Frame nm [helpOpt, row "shm" none true] argv w w' := by
  unfold delete at h
  obtain ⟨⟨vars, n⟩, h1, h⟩ := Server.bind_ok h
  dsimp only at h
  split at h
  · exact absurd h (by simp)
  · rename_i shm hs
    split at h
    · exact absurd h (by simp)
    · rename_i k hk
      simp only [Res.pure_eq, Res.ok.injEq, Prod.mk.injEq] at h
      rw [← h.1]
      exact ⟨vars, n, shm, k, h1, hs, hk, put_other _ _ _⟩

theorem mapped_ok {nm : Str → Option Str} {w : Store} {vars : List Opt} {x : Str × Str × Shared} (h : mapped nm w vars = .ok x) :
    valueOf vars "shm".toList = some x.1 ∧ nm x.1 = some x.2.1 ∧ w x.2.1 = some x.2.2 := by
  unfold mapped at h
  split at h
  · exact absurd h (by simp)
  · rename_i shm hs
    split at h
    · exact absurd h (by simp)
    · rename_i k hk
      split at h
      · exact absurd h (by simp)
      · rename_i s hw
        injection h with h
        subst h
        exact ⟨hs, hk, hw⟩

theorem config_frame {act : Bool} {nm : Str → Option Str} {w w' : Store} {argv : List Str} {t : List Char} (h : configCmd act nm w argv = .ok (w', t)) : Frame nm activateOpts argv w w' := by
  unfold configCmd at h
  obtain ⟨⟨vars, n⟩, h1, h⟩ := Server.bind_ok h
  dsimp only at h
  obtain ⟨x, h2, h⟩ := Server.bind_ok h
  obtain ⟨d, -, h⟩ := Server.bind_ok h
  simp only [Res.pure_eq, Res.ok.injEq, Prod.mk.injEq] at h
  obtain ⟨g1, g2, g3⟩ := mapped_ok h2
  rw [← h.1]
  exact ⟨vars, n, x.1, x.2.1, h1, g1, g2, put_other _ _ _⟩

theorem show_frame {nm : Str → Option Str} {w w' : Store} {argv : List Str} {t : List Char} (h : showCmd nm w argv = .ok (w', t)) : w' = w := by
  unfold showCmd at h
  obtain ⟨⟨vars, n⟩, h1, h⟩ := Server.bind_ok h
  dsimp only at h
  obtain ⟨x, h2, h⟩ := Server.bind_ok h
  obtain ⟨d, -, h⟩ := Server.bind_ok h
  simp only [Res.pure_eq, Res.ok.injEq, Prod.mk.injEq] at h
  exact h.1.symm

theorem prime_frame {w w' : Store} {argv : List Str} {t : List Char} (h : primebelow w argv = .ok (w', t)) : w' = w := by
  unfold primebelow at h
  obtain ⟨-, -, h⟩ := Server.bind_ok h
  split at h
  · simp only [Res.pure_eq, Res.ok.injEq, Prod.mk.injEq] at h
    exact h.1.symm
  · obtain ⟨d, -, h⟩ := Server.bind_ok h
    simp only [Res.pure_eq, Res.ok.injEq, Prod.mk.injEq] at h
    exact h.1.symm

theorem line_frame {nm : Str → Option Str} {rnd : Nat → Nat} {w w' : Store} {argv : List Str} {t : List Char} (h : line nm rnd w argv = .ok (w', t)) :
    (w' = w ∧ (argv.head? = some "show".toList ∨ argv.head? = some "primebelow".toList)) ∨ ∃ c ∈ commands, argv.head? = some c.name ∧ Frame nm c.opts argv w w' := by
  unfold line at h
  cases argv with
  | nil => exact absurd h (by simp)
  | cons a as =>
    dsimp only at h
    split at h
    · rename_i e
      exact Or.inr ⟨⟨"init".toList, initOpts, ["ownfw".toList, "shm".toList, "N".toList, "M".toList]⟩, by decide +kernel, by rw [e]; rfl, init_frame h⟩
    split at h
    · rename_i e
      exact Or.inr ⟨⟨"delete".toList, [helpOpt, row "shm" none true], ["shm".toList]⟩, by decide +kernel, by rw [e]; rfl, delete_frame h⟩
    split at h
    · rename_i e
      exact Or.inl ⟨prime_frame h, Or.inr (by rw [e]; rfl)⟩
    split at h
    · rename_i e
      exact Or.inl ⟨show_frame h, Or.inl (by rw [e]; rfl)⟩
    split at h
    · rename_i e
      exact Or.inr ⟨⟨"activate".toList, activateOpts, ["shm".toList]⟩, by decide +kernel, by rw [e]; rfl, config_frame h⟩
    split at h
    · rename_i e
      exact Or.inr ⟨⟨"deactivate".toList, activateOpts, ["shm".toList]⟩, by decide +kernel, by rw [e]; rfl, config_frame h⟩
    · exact absurd h (by simp)

end Nfqlb.Session
