import Verif.Proof.LogShm

/-! Property C85: the log settings in shared memory. -/

set_option autoImplicit false

namespace Nfqlb.Props

open Nfqlb.LogShm Nfqlb.Spec.LogShm

/-- All processes are at the beginning of `logConfigShm`. -/
def atStart (o : Obj) : Sys := { pc := fun _ => .start, obj := o }

/-- **C85** (partial: the object exists before the processes start).  Any number of processes, in any order of their steps: no one dies
or crashes, and each reading of the level or of the mask gives what was set last, by whomever (at first what is in the object). -/
theorem C85_shared_partial (c : Config) (es : List (Nat × Use)) : Agrees c.level c.mask (run (atStart (.full c)) es).2 :=
  (run_settled es (s := atStart (.full c)) ⟨rfl, fun _ => .inl rfl⟩).2

/-- A run of two processes: one sets the level to 7, the other one reads it, and a third starts. -/
example : (run (atStart (.full ⟨5, 0⟩)) [(1, .getLevel), (2, .getLevel), (1, .getMask), (2, .getMask), (1, .setLevel 7), (2, .getLevel),
    (3, .getLevel), (2, .setMask 6), (1, .getMask)]).2 = [.setLevel 1 7, .gotLevel 2 7, .setMask 2 6, .gotMask 1 6] := by decide +kernel

/-- The steps of a process that creates the object. -/
theorem first_steps (p : Nat) (u1 u2 u3 u4 u5 : Use) :
    (run (atStart .absent) [(p, u1), (p, u2), (p, u3), (p, u4), (p, u5)]).2 = [] ∧
      (run (atStart .absent) [(p, u1), (p, u2), (p, u3), (p, u4), (p, u5)]).1.obj = .full default ∧
      ∀ q, (run (atStart .absent) [(p, u1), (p, u2), (p, u3), (p, u4), (p, u5)]).1.pc q =
        if q = p then .mapped else .start := by
  simp only [run, step, atStart, Sys.go, mmapped, if_true]
  refine ⟨by simp, by simp, ?_⟩
  intro q
  by_cases hq : q = p <;> simp [hq]

/-- **C85** (partial: no other process starts before the first one has created the object).  If the object does not exist, the first
process creates it with level 5 and no tracing, in five steps; after that it is as above. -/
theorem C85_first_partial (p : Nat) (us : List Use) (hus : us.length = 5) (es : List (Nat × Use)) :
    (run (atStart .absent) (us.map (fun u => (p, u)))).1.pc p = .mapped ∧
      Agrees 5 0 (run (atStart .absent) (us.map (fun u => (p, u)) ++ es)).2 := by
  match us, hus with
  | [u1, u2, u3, u4, u5], _ =>
    obtain ⟨h1, h2, h3⟩ := first_steps p u1 u2 u3 u4 u5
    refine ⟨by simpa using h3 p, ?_⟩
    rw [(run_append _ es _).2]
    show Agrees 5 0 ((run (atStart .absent) [(p, u1), (p, u2), (p, u3), (p, u4), (p, u5)]).2 ++ _)
    rw [h1, List.nil_append]
    refine (run_settled es (c := default) ⟨h2, fun q => ?_⟩).2
    show (run (atStart .absent) [(p, u1), (p, u2), (p, u3), (p, u4), (p, u5)]).1.pc q = _ ∨ _
    have := h3 q
    by_cases hq : q = p
    · rw [if_pos hq] at this; simp [this]
    · rw [if_neg hq] at this; simp [this]

example : (run (atStart .absent) (List.replicate 5 (1, .getLevel) ++ [(2, .getLevel), (1, .getLevel), (2, .getLevel), (2, .getMask)])).2 =
    [.gotLevel 1 5, .gotMask 2 0] := by decide +kernel

/-- **C85** `loglevel n` in a process that has mapped the settings prints n, and from then on (until the level is set again) exactly the messages of
severity up to n are logged by every process. -/
theorem C85_loglevel (s : Sys) (c : Config) (hs : Settled s c) (p q : Nat) (hp : s.pc p = .mapped) (hq : s.pc q = .mapped) (n : Int)
    (severity : Nat) :
    (run s (loglevel p (some n))).2 = [.setLevel p n, .gotLevel p n] ∧
      ∃ x, (run s (loglevel p (some n) ++ [(q, .getLevel)])).2 = [.setLevel p n, .gotLevel p n, .gotLevel q x] ∧
        (logged x severity = true ↔ (severity : Int) ≤ n) := by
  obtain ⟨hobj, _⟩ := hs
  have e : run s (loglevel p (some n) ++ [(q, .getLevel)]) =
      ({ s with obj := .full { c with level := n } }, [.setLevel p n, .gotLevel p n, .gotLevel q n]) := by
    simp [loglevel, run, step, use, hp, hq, hobj]
  have e' : run s (loglevel p (some n)) =
      ({ s with obj := .full { c with level := n } }, [.setLevel p n, .gotLevel p n]) := by
    simp [loglevel, run, step, use, hp, hobj]
  refine ⟨by rw [e'], n, by rw [e], ?_⟩
  unfold logged
  simp

example : Settled { pc := fun _ => .mapped, obj := .full ⟨5, 0⟩ } ⟨5, 0⟩ := ⟨rfl, fun _ => by simp⟩

/-- **C85** is violated when two processes start at the same time and the object does not exist: both find that it is not there. (1) The second one
truncates the object after the first one has mapped it: the next log message of the first is a bus error. (2) A level that was set is lost. (3) One of them finds the object empty again and
dies. -/
theorem C85_violated :
    (∃ es, Entry.crashed 1 ∈ (run (atStart .absent) es).2) ∧
    (∃ es, (run (atStart .absent) es).2 = [.setLevel 1 7, .gotLevel 1 5]) ∧
    (∃ es, Entry.died 1 ∈ (run (atStart .absent) es).2) := by
  refine ⟨⟨[(2, .getLevel), (1, .getLevel), (1, .getLevel), (1, .getLevel), (1, .getLevel), (1, .getLevel), (2, .getLevel), (1, .getLevel)], by decide +kernel⟩,
    ⟨[(2, .getLevel), (1, .getLevel), (1, .getLevel), (1, .getLevel), (1, .getLevel), (1, .getLevel), (1, .setLevel 7), (2, .getLevel), (2, .getLevel), (1, .getLevel)], by decide +kernel⟩,
    ⟨[(2, .getLevel), (1, .getLevel), (1, .getLevel), (1, .getLevel), (1, .getLevel), (2, .getLevel), (1, .getLevel)], by decide +kernel⟩⟩

end Nfqlb.Props
