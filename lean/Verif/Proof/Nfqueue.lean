import Verif.Model.Nfqueue
import Verif.Spec.Nfqueue

/-! Lemmas about the callback for queued packets. -/

set_option autoImplicit false

namespace Nfqlb.Nfq

open Nfqlb Nfqlb.Spec.Nfq

variable {σ : Type}

theorem queueCb_carries (handle : Handler σ) (st st1 : σ) (m : Msg) (p : Queued) (r : Int) (hc : Carries m p)
    (hh : handle st p.proto p.data p.data.length = .ok (st1, r)) (h1 : -2147483648 ≤ r) (h2 : r < 2147483648) :
    ∃ v, queueCb handle st m = .ok (1, st1, [v]) ∧ Answers v p r := by
  obtain ⟨hp, hq, hpl, hlen, h, hhdr, hid, hpr⟩ := hc
  unfold queueCb
  rw [if_neg (by simp [hp]), hhdr, hpl]
  dsimp only
  rw [Nat.mod_eq_of_lt hlen]
  have e1 : 256 * h.hwProtocol.1.toNat + h.hwProtocol.2.toNat = p.proto := by rw [hpr]; simp [value]; omega
  have e2 : ntohl h.packetId = p.id := by rw [hid]; simp [value, ntohl]; omega
  have e3 : 256 * m.resId.1.toNat + m.resId.2.toNat = p.queue := by rw [hq]; simp [value]; omega
  rw [e1, e2, e3, hh]
  simp only [Res.ok_bind]
  by_cases hr : r < 0
  · rw [if_pos hr]
    exact ⟨_, rfl, rfl, rfl, fun _ => rfl, fun h => by omega⟩
  · rw [if_neg hr]
    refine ⟨_, rfl, rfl, rfl, fun h => by omega, fun h => ⟨rfl, ?_⟩⟩
    have : r % 4294967296 = r := Int.emod_eq_of_lt (by omega) (by omega)
    simp only [this]
    omega

theorem run_cons (handle : Handler σ) (st st1 : σ) (m : Msg) (ms : List Msg) (vs : List Verdict) (h : queueCb handle st m = .ok (1, st1, vs)) :
    run handle st (m :: ms) = (vs ++ (run handle st1 ms).1, (run handle st1 ms).2) := by
  simp only [run]
  rw [h]
  rfl

theorem run_answers (handle : Handler σ) (ms : List Msg) (ps : List Queued) (hc : AllCarried ms ps) :
    ∀ (st st' : σ) (rs : List Int), Handles handle st ps rs st' → ∃ vs, run handle st ms = (vs, .ok st') ∧ AllAnswered vs ps rs := by
  induction hc with
  | nil =>
    intro st st' rs hh
    cases hh
    exact ⟨[], rfl, .nil⟩
  | cons hcar _ ih =>
    intro st st' rs hh
    cases hh with
    | cons h0 h1 h2 h3 =>
      obtain ⟨v, hv, hans⟩ := queueCb_carries handle _ _ _ _ _ hcar h0 h1 h2
      obtain ⟨vs, hvs, hall⟩ := ih _ _ _ h3
      refine ⟨v :: vs, ?_, .cons hans hall⟩
      rw [run_cons _ _ _ _ _ _ hv, hvs]
      rfl

/-- Whatever happens, the callback sends one verdict when it reports no error, and none else. -/
theorem queueCb_verdicts (handle : Handler σ) (st st1 : σ) (m : Msg) (rc : Int) (vs : List Verdict) (h : queueCb handle st m = .ok (rc, st1, vs)) :
    (rc = -1 ∧ vs = [] ∧ (m.parses = false ∨ m.hdr = none)) ∨ (rc = 1 ∧ vs.length = 1) := by
  unfold queueCb at h
  split at h
  · simp only [Res.ok.injEq, Prod.mk.injEq] at h
    exact Or.inl ⟨h.1.symm, h.2.2.symm, Or.inl (by assumption)⟩
  · split at h
    · simp only [Res.ok.injEq, Prod.mk.injEq] at h
      exact Or.inl ⟨h.1.symm, h.2.2.symm, Or.inr (by assumption)⟩
    · split at h
      · cases h
      · rename_i ph _ _ payload _
        dsimp only at h
        cases hh : handle st (256 * ph.hwProtocol.1.toNat + ph.hwProtocol.2.toNat) payload (payload.length % 65536) with
        | ok q =>
          rw [hh] at h
          simp only [Res.ok_bind] at h
          split at h
          all_goals
            simp only [Res.pure_eq, Res.ok.injEq, Prod.mk.injEq] at h
            exact Or.inr ⟨h.1.symm, by rw [← h.2.2]; rfl⟩
        | die => rw [hh] at h; cases h
        | ub => rw [hh] at h; cases h
        | hang => rw [hh] at h; cases h

/-- The number of verdicts is the number of messages that have been handled. -/
theorem run_count (handle : Handler σ) (ms : List Msg) : ∀ (st st' : σ) (vs : List Verdict),
    run handle st ms = (vs, .ok st') → vs.length = ms.length := by
  induction ms with
  | nil => intro st st' vs h; simp only [run, Prod.mk.injEq] at h; rw [← h.1]; rfl
  | cons m ms ih =>
    intro st st' vs h
    simp only [run] at h
    cases hq : queueCb handle st m with
    | ok q =>
      obtain ⟨rc, st1, v1⟩ := q
      rw [hq] at h
      dsimp only at h
      rcases queueCb_verdicts handle _ _ _ _ _ hq with ⟨hrc, _, _⟩ | ⟨hrc, hl⟩
      · rw [if_pos (by omega)] at h; simp at h
      · rw [if_neg (by omega)] at h
        simp only [Prod.mk.injEq] at h
        have := ih st1 st' _ (Prod.ext rfl h.2)
        rw [← h.1, List.length_append, hl, this, List.length_cons]
        omega
    | die => rw [hq] at h; simp at h
    | ub => rw [hq] at h; simp at h
    | hang => rw [hq] at h; simp at h

theorem run_at_most (handle : Handler σ) (ms : List Msg) : ∀ (st : σ), (run handle st ms).1.length ≤ ms.length := by
  induction ms with
  | nil => intro st; simp [run]
  | cons m ms ih =>
    intro st
    simp only [run]
    cases hq : queueCb handle st m with
    | ok q =>
      obtain ⟨rc, st1, v1⟩ := q
      dsimp only
      rcases queueCb_verdicts handle _ _ _ _ _ hq with ⟨hrc, hv, _⟩ | ⟨hrc, hl⟩
      · rw [if_pos (by omega), hv]; simp
      · rw [if_neg (by omega)]
        have := ih st1
        simp only [List.length_append, hl, List.length_cons]
        omega
    | die => simp
    | ub => simp
    | hang => simp

end Nfqlb.Nfq
