import Verif.Proof.Session
import Verif.Proof.Lb
import Verif.Props.Report

/-! The property C81: sessions with the command lines of `nfqlb`, from the words that the user types to the targets that packets get. -/

set_option autoImplicit false

namespace Nfqlb.Props

open Nfqlb.Session Nfqlb.Spec.Session
open Nfqlb.Spec (activeMarks)

/-! ### C81: sessions of command lines -/

/-- C81, partial: whatever the random numbers are, every sequence of command lines `init`, `delete`, `activate` and `deactivate` with numbers in range runs without undefined behaviour. Exactly the lines that should be
refused end with an error. Afterwards there are exactly the load-balancers that should be there; each has its own mark, its number of slots (the largest prime up to the one given) and its set of targets, and a packet
with any hash gets one of the targets of this set, or none if there are none. Missing: more than 65536 slots (C02), and tables that are too large for 32 bits (C06). -/
theorem C81_session_partial (nm : Cmd.Str → Option Cmd.Str) (rnd : Nat → Nat) (ls : List Line) (hl : ∀ l ∈ ls, nm l.shm = some l.shm ∧ l.InRange) :
    ∃ w ts, session nm rnd (fun _ => none) (ls.map Line.argv) = .ok (w, ts) ∧ ts.map Option.isNone = refusals (fun _ => none) ls ∧
      ∀ name, (w name = none ∧ after ls name = none) ∨
        ∃ s lb, w name = some s ∧ after ls name = some lb ∧ s.own = lb.own ∧ s.mag.M = lb.M ∧ s.mag.N = lb.N ∧ activeMarks s.mag.active = lb.targets ∧
          ∀ hash, ∃ fw, Maglev.target s.mag hash = .ok fw ∧ (lb.targets ≠ ∅ → fw ∈ lb.targets) ∧ (lb.targets = ∅ → fw = -1) := by
  obtain ⟨w, ts, h1, h2, h3⟩ := session_does (nm := nm) (rnd := rnd) ls (w := fun _ => none) (S := fun _ => none) (fun _ => Or.inl ⟨rfl, rfl⟩) hl
  refine ⟨w, ts, h1, h3, fun name => ?_⟩
  rcases h2 name with h | ⟨s, lb, e1, e2, hi⟩
  · exact Or.inl h
  · refine Or.inr ⟨s, lb, e1, e2, hi.own, hi.m, hi.n, hi.targets, fun hash => ?_⟩
    obtain ⟨fw, f1, f2⟩ := Nfqlb.target_cases hi.inv hash
    rw [hi.targets] at f2
    refine ⟨fw, f1, fun hne => ?_, fun he => ?_⟩
    · rcases f2 with f2 | f2
      · exact f2.2.1
      · exact absurd f2.1 hne
    · rcases f2 with f2 | f2
      · exact absurd he f2.1
      · exact f2.2

/-- C81, partial: after such a session, `nfqlb show` shows what should be there: own mark, slots, the maximum number of targets, and the set of targets. Missing: as above. -/
theorem C81_show_partial (nm : Cmd.Str → Option Cmd.Str) (rnd : Nat → Nat) (ls : List Line) (hl : ∀ l ∈ ls, nm l.shm = some l.shm ∧ l.InRange)
    (name : List Char) (hs : '\n' ∉ name) (hn : nm name = some name) (lb : Spec.Session.Lb) (ha : after ls name = some lb) :
    ∃ w ts txt shown, session nm rnd (fun _ => none) (ls.map Line.argv) = .ok (w, ts) ∧ line nm rnd w ["show".toList, "--shm=".toList ++ name] = .ok (w, txt) ∧
      Spec.Show.read txt = some shown ∧ shown.shm = name ∧ shown.own = lb.own ∧ shown.M = lb.M ∧ shown.N = lb.N ∧ (shown.targets.map Prod.fst).toFinset = lb.targets := by
  obtain ⟨w, ts, h1, h2, -⟩ := session_does (nm := nm) (rnd := rnd) ls (w := fun _ => none) (S := fun _ => none) (fun _ => Or.inl ⟨rfl, rfl⟩) hl
  rcases h2 name with h | ⟨s, lb', e1, e2, hi⟩
  · exact absurd (ha.symm.trans h.2) (by simp)
  · have : lb' = lb := by
      have := e2.symm.trans ha
      injection this
    subst this
    obtain ⟨txt, t1, t2⟩ := Report.show_read (lookup_len hi.inv) hi.inv.alen hi.m31 hi.n31 name hs s.own
    obtain ⟨vars, n, p1, p2⟩ := parse_show "show".toList name
    refine ⟨w, ts, txt, _, h1, ?_, t2, rfl, hi.own, hi.m, hi.n, ?_⟩
    · unfold line
      dsimp only
      rw [if_neg (by decide), if_neg (by decide), if_neg (by decide), if_pos rfl]
      unfold showCmd mapped
      rw [p1, Res.ok_bind]
      dsimp only
      rw [p2]
      simp only [hn, e1, Res.ok_bind, t1]
      rfl
    · dsimp only
      rw [← hi.targets]
      have e : (s.mag.active.zipIdx.filter (fun x => decide (0 ≤ x.1))).map Prod.fst = s.mag.active.filter (fun a => decide (0 ≤ a)) := by
        have : ∀ (l : List Int) (k : Nat), ((l.zipIdx k).filter (fun x => decide (0 ≤ x.1))).map Prod.fst = l.filter (fun a => decide (0 ≤ a)) := by
          intro l
          induction l with
          | nil => intro k; rfl
          | cons a l ih =>
            intro k
            rw [List.zipIdx_cons, List.filter_cons, List.filter_cons]
            split
            · rw [List.map_cons, ih]
            · exact ih _
        exact this _ _
      rw [e]
      rfl

/-- C81, partial: lines with anything on them (any options, any words, `--index`, `show`, `primebelow`, unknown commands) do not break it: mixed in any order with lines of `init` with numbers in range, all of them end, none
has undefined behaviour. Missing: `init` with any numbers, see C02 and C06. -/
theorem C81_no_crash_partial (nm : Cmd.Str → Option Cmd.Str) (rnd : Nat → Nat) (as : List (List Cmd.Str)) (ha : ∀ a ∈ as, a.head? ≠ some "init".toList ∨ ∃ l : Line, l.InRange ∧ l.argv = a) :
    ∃ w ts, session nm rnd (fun _ => none) as = .ok (w, ts) ∧ ts.length = as.length := by
  obtain ⟨w, ts, h1, -, h3⟩ := session_harmless nm rnd as (w := fun _ => none) (fun k s h => absurd h (by simp)) ha
  exact ⟨w, ts, h1, h3⟩

/-- C81: a line changes at most the load-balancer that its option `--shm` names (or the default value), whatever else is on the line; `show` and `primebelow` change nothing. -/
theorem C81_only_named (nm : Cmd.Str → Option Cmd.Str) (rnd : Nat → Nat) (w w' : Store) (argv : List Cmd.Str) (t : List Char) (h : line nm rnd w argv = .ok (w', t)) :
    (w' = w ∧ (argv.head? = some "show".toList ∨ argv.head? = some "primebelow".toList)) ∨
    ∃ c ∈ Cmd.commands, argv.head? = some c.name ∧ ∃ vars n shm k, Cmd.parseOrDie c.opts argv = .ok (vars, n) ∧ Cmd.valueOf vars "shm".toList = some shm ∧ nm shm = some k ∧
      ∀ j, j ≠ k → w' j = w j := line_frame h

/-- A session for the examples: two load-balancers, targets in both, one is deleted; a line is refused because there is no load-balancer with this name. -/
def seLines : List Line := [.init "a".toList 3 8 3, .init "b".toList 4 10 2, .activate "a".toList [5, 6, 7], .activate "c".toList [1], .deactivate "a".toList [6], .activate "b".toList [1, 2, 9], .delete "a".toList, .init "a".toList 0 5 9]

example : ∀ l ∈ seLines, some l.shm = some l.shm ∧ l.InRange := by
  intro l hl
  simp only [seLines, List.mem_cons, List.not_mem_nil, or_false] at hl
  refine ⟨rfl, ?_⟩
  rcases hl with rfl | rfl | rfl | rfl | rfl | rfl | rfl | rfl <;> simp [Line.InRange]

/-- The lines that are refused, and whether there is a load-balancer with the name `a`. -/
example : (do
    let (w, ts) ← session some demoRnd (fun _ => none) (seLines.map Line.argv)
    return ((w "a".toList).isNone, ts.map Option.isNone)) = .ok (true, [false, false, false, true, false, false, false, true]) := by decide +kernel

/-- The load-balancer `b`: its own mark, slots and targets. -/
example : (do
    let (w, _) ← session some demoRnd (fun _ => none) (seLines.map Line.argv)
    return (w "b".toList).map (fun (s : Shared) => (s.own, s.mag.M, s.mag.active))) = .ok (some (4, 7, [1, 2])) := by decide +kernel

/-- C81, violated: a word that is not a number is no error: `activate x` activates the target 0, and `deactivate --index=x` takes away the first target. -/
theorem C81_violated : (do
    let (w, ts) ← session some demoRnd (fun _ => none) [["init".toList, "--M=7".toList, "--N=3".toList], ["activate".toList, "5".toList, "x".toList], ["deactivate".toList, "--index=x".toList]]
    return ((w "nfqlb".toList).map (fun (s : Shared) => s.mag.active), ts)) = .ok (some [-1, 0, -1], [some [], some [], some []]) := by decide +kernel

end Nfqlb.Props
