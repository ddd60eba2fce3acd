import Verif.Proof.LbRace

/-! C44: releasing a load-balancer while others look it up by name. -/

set_option autoImplicit false

namespace Nfqlb.Props

open Nfqlb Nfqlb.LbRace Nfqlb.Spec.LbRace

/-- C44 for any number of threads, and all interleavings in which no lookup by name falls between the decrement of a counter to 0 and the removal of that load-balancer from the list: every access is to a
load-balancer that is not freed, none is freed twice, and no reference is to one that is freed or being released. Missing: the other interleavings, for which it is false (`C44_violated`). -/
theorem C44_safe_partial (s : St) (h : Quiet s) :
    (∀ m, (∀ t, m = .find t → ∀ p, (p, Phase.unlink) ∉ s.pend) → ∃ s', move s m = .ok s') ∧
    ∀ p ∈ s.held, s.freed p = 0 ∧ p ∈ s.list ∧ ∀ ph, (p, ph) ∉ s.pend := by
  have hi := quiet_inv h
  constructor
  · intro m hm
    obtain ⟨s', e, _⟩ := move_inv hi m hm
    exact ⟨s', e⟩
  · intro p hp
    exact hi.live p (held_live hi hp)

/-- A load-balancer without references is released at once: it is freed, or a thread is in `loadbalancerRelease` for it. -/
theorem C44_released_partial (s : St) (h : Quiet s) (p : Nat) (hp : p ∈ s.list) : p ∈ s.held ∨ (p, Phase.unlink) ∈ s.pend := by
  have hi := quiet_inv h
  rcases (hi.listed p hp).2 with h1 | h1
  · left
    have := hi.count p
    exact List.count_pos_iff.1 (by omega)
  · exact .inr h1

/-- Such a run: two references to one load-balancer and one to another, of which the last is given up, with another lookup before it is freed. -/
def lbRun : List Mv := [.find 7, .find 7, .find 8, .release 1, .copy 0, .unlink 1, .find 8, .free 1, .release 0]

example : ∃ s, Quiet s ∧ s.held = [2, 0, 0] ∧ s.list = [2, 0] ∧ s.freed 1 = 1 := by
  have e : ∀ (s s' : St) (m : Mv), move s m = .ok s' → ((∀ t, m ≠ .find t) ∨ s.pend.all (fun x => x.2 != .unlink) = true) → Quiet s → Quiet s' := by
    intro s s' m h1 h2 h3
    refine Quiet.move m h3 ?_ h1
    intro t ht p hp
    rcases h2 with h2 | h2
    · exact h2 t ht
    · have := List.all_eq_true.1 h2 _ hp
      simp at this
  have q1 := e _ _ (.find 7) rfl (.inr rfl) Quiet.start
  have q2 := e _ _ (.find 7) rfl (.inr rfl) q1
  have q3 := e _ _ (.find 8) rfl (.inr rfl) q2
  have q4 := e _ _ (.release 1) rfl (.inl (by simp)) q3
  have q5 := e _ _ (.copy 0) rfl (.inl (by simp)) q4
  have q6 := e _ _ (.unlink 1) rfl (.inl (by simp)) q5
  have q7 := e _ _ (.find 8) rfl (.inr rfl) q6
  have q8 := e _ _ (.free 1) rfl (.inl (by simp)) q7
  have q9 := e _ _ (.release 0) rfl (.inl (by simp)) q8
  exact ⟨_, q9, rfl, rfl, rfl⟩

/-- C44 as stated is false: `loadbalancerRelease` decrements the counter before it takes `lblistLock` (/repo/src/nfqlb/cmdFlowLb.c:388-392). In between, `loadbalancerFindOrCreate` finds the load-balancer in the list
and increments the counter from 0 to 1.
* Its caller has a load-balancer that is then freed, and uses it.
* Or gives it up again, and it is freed twice. -/
theorem C44_violated :
    (run start [.find 7, .release 0, .find 7, .unlink 0, .free 0, .use 0]).isUb = true ∧
    (run start [.find 7, .release 0, .find 7, .unlink 0, .release 0, .free 0, .unlink 0]).isUb = true := by
  constructor <;> decide +kernel

end Nfqlb.Props
