import Verif.Spec.LogShm

/-! Lemmas about the shared log settings. -/

set_option autoImplicit false

namespace Nfqlb.LogShm

open Spec.LogShm

/-- The object exists, and nobody is about to create it. -/
def Settled (s : Sys) (c : Config) : Prop :=
  s.obj = .full c ∧ ∀ p, s.pc p = .start ∨ s.pc p = .opened ∨ s.pc p = .again ∨ s.pc p = .againOpened ∨ s.pc p = .mapped

theorem Settled.go {s : Sys} {c : Config} (h : Settled s c) (p : Nat) {x : Pc}
    (hx : x = .start ∨ x = .opened ∨ x = .again ∨ x = .againOpened ∨ x = .mapped) : Settled (s.go p x) c := by
  refine ⟨h.1, fun q => ?_⟩
  have e : (s.go p x).pc q = if q = p then x else s.pc q := rfl
  rw [e]
  by_cases hq : q = p
  · rw [if_pos hq]; exact hx
  · rw [if_neg hq]; exact h.2 q

theorem step_settled {s : Sys} {c : Config} (h : Settled s c) (p : Nat) (u : Use) :
    ∃ c', Settled (step s p u).1 c' ∧
      ∀ es, Agrees c.level c.mask ((step s p u).2 ++ es) ↔ Agrees c'.level c'.mask es := by
  have hobj := h.1
  unfold step
  rcases h.2 p with hp | hp | hp | hp | hp <;> rw [hp] <;> dsimp only
  · rw [hobj, if_neg (by simp)]
    exact ⟨c, h.go p (by simp), fun es => Iff.rfl⟩
  · unfold mmapped
    rw [hobj]
    exact ⟨c, h.go p (by simp), fun es => Iff.rfl⟩
  · rw [hobj, if_neg (by simp)]
    exact ⟨c, h.go p (by simp), fun es => Iff.rfl⟩
  · unfold mmapped
    rw [hobj]
    exact ⟨c, h.go p (by simp), fun es => Iff.rfl⟩
  · unfold use
    rw [hobj]
    cases u with
    | getLevel => exact ⟨c, h, fun es => ⟨fun h => h.2, fun h => ⟨rfl, h⟩⟩⟩
    | setLevel x => exact ⟨{ c with level := x }, ⟨rfl, h.2⟩, fun es => Iff.rfl⟩
    | getMask => exact ⟨c, h, fun es => ⟨fun h => h.2, fun h => ⟨rfl, h⟩⟩⟩
    | setMask x => exact ⟨{ c with mask := x }, ⟨rfl, h.2⟩, fun es => Iff.rfl⟩

theorem run_settled (es : List (Nat × Use)) : ∀ {s : Sys} {c : Config}, Settled s c →
    (∃ c', Settled (run s es).1 c') ∧ Agrees c.level c.mask (run s es).2 := by
  induction es with
  | nil => intro s c h; exact ⟨⟨c, h⟩, trivial⟩
  | cons e es ih =>
    intro s c h
    obtain ⟨p, u⟩ := e
    obtain ⟨c', h1, h2⟩ := step_settled h p u
    obtain ⟨h3, h4⟩ := ih h1
    exact ⟨h3, (h2 _).2 h4⟩

theorem run_append (as bs : List (Nat × Use)) : ∀ s : Sys,
    (run s (as ++ bs)).1 = (run (run s as).1 bs).1 ∧ (run s (as ++ bs)).2 = (run s as).2 ++ (run (run s as).1 bs).2 := by
  induction as with
  | nil => intro s; exact ⟨rfl, rfl⟩
  | cons e as ih =>
    intro s
    obtain ⟨p, u⟩ := e
    obtain ⟨h1, h2⟩ := ih (step s p u).1
    refine ⟨h1, ?_⟩
    show (step s p u).2 ++ (run (step s p u).1 (as ++ bs)).2 = (step s p u).2 ++ (run (step s p u).1 as).2 ++ _
    rw [h2, List.append_assoc]
    rfl

end Nfqlb.LogShm
