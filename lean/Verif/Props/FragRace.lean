import Verif.Proof.FragRace

/-! C33: reference counting of the state of datagrams. -/

set_option autoImplicit false

namespace Nfqlb.Props

open Nfqlb.Race Nfqlb.Spec.Race

/-- Whatever the number of threads and the order of their steps: as long as no entry is taken out of the tracker in one of the two windows, no object is used or counted
after it was given back (`ub`) and no counter gets negative (`die`), no object is given back twice, no thread has an object that was given back; and when no entry of
the tracker and no thread has an object any more, it has been given back. The full claim has no condition `Calm`; it is false, see `C33_violated`. -/
theorem C33_safe_partial (n : Nat) (ms : List Mv) (h : Calm (start n) ms) :
    ∃ s, runMoves (start n) ms = .ok s ∧ (∀ id, s.freed id ≤ 1) ∧ (∀ k id, Th.using k id ∈ s.thr → s.freed id = 0) ∧ (∀ e ∈ s.entries, s.freed e.id = 0) ∧
      (s.dying = [] → (∀ t ∈ s.thr, t = .idle) → ∀ id < s.next, (∀ e ∈ s.entries, e.id ≠ id) → s.freed id = 1) := by
  obtain ⟨s, hs, hi⟩ := run_inv ms (start_inv n) h
  refine ⟨s, hs, ?_, ?_, ?_, ?_⟩
  · intro id
    have := hi.once id
    omega
  · intro k id ht
    obtain ⟨i, hlt, hg⟩ := List.getElem_of_mem ht
    exact (hi.alive (need_held (i := i) (by rw [List.getElem?_eq_getElem hlt, hg]) (j := id) (by simp [held]))).2.1
  · intro e he
    exact (hi.alive (need_ent he)).2.1
  · intro hd hth id hid hen
    have h0 : need s id = 0 := by
      have h1 : ∀ l : List Th, (∀ t ∈ l, t = .idle) → heldAll id l = 0 := by
        intro l
        induction l with
        | nil => intro _; rfl
        | cons x l ih =>
          intro hl
          have hx := hl x (by simp)
          subst hx
          have := ih (fun t ht => hl t (by simp [ht]))
          simp only [heldAll, List.map_cons, List.sum_cons] at this ⊢
          simpa [held] using this
      have h2 : ∀ l : List Entry, (∀ e ∈ l, e.id ≠ id) → entAll id l = 0 := by
        intro l
        induction l with
        | nil => intro _; rfl
        | cons x l ih =>
          intro hl
          have hx := hl x (by simp)
          have := ih (fun t ht => hl t (by simp [ht]))
          simp only [entAll, List.map_cons, List.sum_cons, own, if_neg hx] at this ⊢
          simpa using this
      unfold need
      rw [h1 _ hth, h2 _ hen]
    have ho := hi.once id
    have : s.freed id ≠ 0 := by
      intro hf
      have := hi.live id hid hf (by rw [hd]; simp)
      omega
    omega

/-- Two threads race for the first fragment of the same datagram: thread 0 wins, thread 1 gives its object back and finds the one of thread 0, later the
entry expires and both threads drop their references. No step is in a window. -/
def calmRun : List Mv :=
  [.lookup 0 7, .lookup 1 7, .alloc 0 true, .alloc 1 true, .insert 0 3 true, .insert 1 4 true, .refinc 0, .unlock 1, .release, .lookup 1 7, .ret 1, .use 0, .use 1,
   .expire ⟨3, 7, 0⟩, .use 1, .unlock 0, .unlock 1, .release]

/-- `Calm`, computed. -/
def calmB : St → List Mv → Bool
  | _, [] => true
  | s, m :: ms =>
    (match takenOut s m with
      | some e => s.thr.all (fun t => !inWindow e t)
      | none => true) &&
    match move s m with
    | .ok s' => calmB s' ms
    | _ => true

theorem calm_of_calmB : ∀ (ms : List Mv) (s : St), calmB s ms = true → Calm s ms
  | [], _, _ => trivial
  | m :: ms, s, h => by
    simp only [calmB, Bool.and_eq_true] at h
    obtain ⟨h1, h2⟩ := h
    constructor
    · intro e he t ht
      rw [he] at h1
      simpa using List.all_eq_true.1 h1 t ht
    · intro s' hs
      rw [hs] at h2
      exact calm_of_calmB ms s' h2

/-- The hypothesis holds in a run in which two threads race, and both objects are given back once in it. -/
example : Calm (start 2) calmRun ∧ (do let s ← runMoves (start 2) calmRun; return [s.freed 0, s.freed 1, s.next, s.entries.length]) = Res.ok [1, 1, 2, 0] :=
  ⟨calm_of_calmB _ _ (by decide +kernel), by decide +kernel⟩

/-- The claim is false for some schedules.
1. /repo/src/lib/fragutils.c:124-127 inserts the object with one reference and takes its own reference afterwards: if the entry expires in between, the object is
already given back when its counter is incremented.
2. /repo/src/lib/conntrack.c:171-172 reads `b->data` after the bucket is unlocked: if the entry is removed and the bucket is used for another datagram in between, the thread gets
the object of the other datagram without a reference, and uses it after it was given back.
3. With the same window and a bucket that is not used again, `ctLookup` returns NULL: the reference is lost and the object is never given back, though no entry and no thread has it. -/
theorem C33_violated :
    (∃ ms, runMoves (start 2) ms = .ub ∧ ms = [.lookup 0 7, .alloc 0 true, .insert 0 3 true, .expire ⟨3, 7, 0⟩, .release, .refinc 0]) ∧
    (∃ ms, runMoves (start 2) ms = .ub ∧
      ms = [.lookup 0 7, .alloc 0 true, .insert 0 3 true, .refinc 0, .unlock 0, .lookup 1 7, .expire ⟨3, 7, 0⟩, .lookup 0 8, .alloc 0 true, .insert 0 3 true, .refinc 0,
        .ret 1, .unlock 0, .expire ⟨3, 8, 1⟩, .release, .use 1]) ∧
    (∃ ms, (do let s ← runMoves (start 2) ms; return (s.thr, s.entries, s.dying, s.next, s.freed 0)) = Res.ok ([.idle, .idle], [], [], 1, 0) ∧
      ms = [.lookup 0 7, .alloc 0 true, .insert 0 3 true, .refinc 0, .unlock 0, .lookup 1 7, .expire ⟨3, 7, 0⟩, .ret 1, .alloc 1 false]) :=
  ⟨⟨_, by rfl, rfl⟩, ⟨_, by rfl, rfl⟩, ⟨_, by decide +kernel, rfl⟩⟩

end Nfqlb.Props
