import Verif.Model.FragDestroy
import Verif.Proof.FragRuns

/-! Lemmas for C99. -/

set_option autoImplicit false

namespace Nfqlb.Frag

open Nfqlb.Ct (Ct Ev Slot Bucket vals fv chains Quiet liveT TInv)
open Nfqlb.Spec (Stored)
open Nfqlb.Spec.Frag

variable {N MB MF T : Nat}

theorem sum_zeros : ∀ l : List Bucket, (l.map (fun _ => 0)).sum = 0
  | [] => rfl
  | _ :: l => by simp [sum_zeros l]

/-- Statistics at any time, also one before the last operation. -/
theorem stats_any {ft : Ft} {t : Nat} (i : FInv N MB MF T ft t 0) (now : Nat) :
    FInv N MB MF T (fragGetStats ft now) t 0 ∧ ((fragGetStats ft now).gone ++ storedAll (fragGetStats ft now)).Perm (ft.gone ++ storedAll ft) ∧
      (∀ s, Stored (fragGetStats ft now).ct s → Ct.stale s now = false) ∧ (vals (fragGetStats ft now).ct = [] → (fragGetStats ft now).ct.stats.active = 0) := by
  obtain ⟨ct', ev, n, h1, h2, h3, h4, h5, h6, h7, h8, -⟩ := Ct.stats_cases i.ctI now
  obtain ⟨s1, s2⟩ := Ct.stats_shape ft.ct now
  rw [h1] at s1 s2
  have hnz := Ct.step_nz (Ct.step_stats h1)
  have hp := Ct.perm_of_count (add := none) hnz (by simp) (by simpa using h7)
  simp only [Option.toList_none, List.nil_append] at hp
  have hch : chains ct' + ev.count .freeBucket = chains ft.ct + ev.count (.alloc true) := h8
  rw [quiet_alloc s2] at hch
  have hsub : ∀ s, Stored ct' s → Stored ft.ct s := by
    intro s hs
    obtain ⟨⟨b, hb, hm⟩, hd⟩ := Ct.stored_iff.1 hs
    exact Ct.stored_iff.2 ⟨(h6 b hb s hm hd).2, hd⟩
  obtain ⟨c1, -, c2, c3, c4, c5, c6⟩ := ct_step' (now := t) i s2 hp (fun h0 => Ct.zero_notin_fv hnz h0) h3
    (fun b hb s hs hd => by obtain ⟨_, b0, hb0, hs0⟩ := h6 b hb s hs hd; exact i.tinv b0 hb0 s hs0 hd) s1
    (fun s hs => i.ttlE s (hsub s hs)) (by simpa using hch)
  have he : fragGetStats ft now = onEvents { ft with ct := ct' } ev := by simp only [fragGetStats, h1]
  rw [he]
  refine ⟨c1, c6, ?_, ?_⟩
  · intro s hs
    rw [c3] at hs
    obtain ⟨⟨b, hb, hm⟩, hd⟩ := Ct.stored_iff.1 hs
    exact (h6 b hb s hm hd).1
  · intro hv
    rw [c3] at hv ⊢
    rw [h2]
    suffices Ct.sumT (Ct.cntB (fun v => decide (v ≠ 0))) ct'.buckets = 0 by simp only [this]; rfl
    have hz : ∀ b ∈ ct'.buckets, Ct.cntB (fun v => decide (v ≠ 0)) b = 0 := by
      intro b hb
      unfold Ct.cntB
      rw [List.countP_eq_zero]
      intro s hs
      by_cases hd : s.data = 0
      · simp [hd]
      · have := Ct.mem_vals.2 ⟨s, Ct.stored_iff.2 ⟨⟨b, hb, hs⟩, hd⟩, rfl⟩
        rw [hv] at this
        cases this
    unfold Ct.sumT
    have : ct'.buckets.map (Ct.cntB (fun v => decide (v ≠ 0))) = ct'.buckets.map (fun _ => 0) := List.map_congr_left hz
    rw [this]
    exact sum_zeros _

/-- Nothing is left if the time is late enough. -/
theorem stats_late {ft : Ft} {t : Nat} (i : FInv N MB MF T ft t 0) {now : Nat} (h64 : now < 2 ^ 64) (hn : t + T < now) : vals (fragGetStats ft now).ct = [] := by
  obtain ⟨i', -, h3, -⟩ := stats_any i now
  refine List.eq_nil_iff_forall_not_mem.2 (fun v hv => ?_)
  obtain ⟨s, hs, -⟩ := Ct.mem_vals.1 hv
  have h1 := h3 s hs
  obtain ⟨⟨b, hb, hm⟩, hd⟩ := Ct.stored_iff.1 hs
  have h2 := i'.tinv b hb s hm hd
  have h4 := i'.ttlE s hs
  have := Ct.stale_false (s := s) (now := now) (by omega) h64
  rw [h1] at this
  simp at this
  omega

/-- What the invariant says about a table without entries. -/
theorem finv_empty {ft : Ft} {t : Nat} (i : FInv N MB MF T ft t 0) (hv : vals ft.ct = []) :
    ft.freeObjs.Perm (List.range' 1 N) ∧ ft.fragsFree = MF ∧ storedAll ft = [] ∧ ft.bucketsFree = MB := by
  have h1 := i.perm
  have h2 := i.frags
  have h3 := i.bkt
  rw [hv] at h1 h2
  refine ⟨by simpa using h1, by simpa [sizeOf] using h2, by unfold storedAll; rw [hv]; rfl, ?_⟩
  have : chains ft.ct = 0 := by
    unfold chains Ct.sumT
    have hz : ∀ b ∈ ft.ct.buckets, b.chain.length = 0 := by
      intro b hb
      obtain ⟨j, hj⟩ := List.getElem?_of_mem hb
      have hB := (i.ctI.bkt j b hj).1
      rw [List.length_eq_zero_iff]
      refine List.eq_nil_iff_forall_not_mem.2 (fun s hs => ?_)
      have := Ct.mem_vals.2 ⟨s, Ct.stored_iff.2 ⟨⟨b, hb, Ct.mem_slots.2 (Or.inr hs)⟩, hB.data s hs⟩, rfl⟩
      rw [hv] at this
      cases this
    have : ft.ct.buckets.map (fun b => b.chain.length) = ft.ct.buckets.map (fun _ => 0) := List.map_congr_left hz
    rw [this]
    exact sum_zeros _
  omega

/-- The functions of the table do not look at the tracker. -/
theorem onEvents_ct (ct : Ct) : ∀ (evs : List Ev) (ft : Ft), onEvents { ft with ct := ct } evs = { onEvents ft evs with ct := ct }
  | [], _ => rfl
  | e :: evs, ft => by
    have h : onEvent { ft with ct := ct } e = { onEvent ft e with ct := ct } := by
      cases e with
      | free v w =>
        by_cases hr : ((setObj ft v { ft.objs v with ref := (ft.objs v).ref - 1 }).objs v).ref = 0
        · have h1 : unlock { ft with ct := ct } v = { unlock ft v with ct := ct } := by
            unfold unlock
            dsimp only
            rw [if_pos hr, if_pos (show ((setObj { ft with ct := ct } v { ft.objs v with ref := (ft.objs v).ref - 1 }).objs v).ref = 0 from hr)]
            rfl
          exact h1
        · have h1 : unlock { ft with ct := ct } v = { unlock ft v with ct := ct } := by
            unfold unlock
            dsimp only
            rw [if_neg hr, if_neg (show ¬ ((setObj { ft with ct := ct } v { ft.objs v with ref := (ft.objs v).ref - 1 }).objs v).ref = 0 from hr)]
            rfl
          exact h1
      | freeBucket => rfl
      | alloc ok => cases ok <;> rfl
      | lock v => rfl
    simp only [onEvents, List.foldl_cons, h]
    exact onEvents_ct ct evs (onEvent ft e)

/-- Destroying the tracker does what statistics at the last moment of time do. -/
theorem destroy_eq (ft : Ft) : fragGetStats ft (2 ^ 64 - 1) = { onEvents ft (Ct.destroy ft.ct) with ct := (Ct.ctStats ft.ct (2 ^ 64 - 1)).1 } :=
  (show fragGetStats ft (2 ^ 64 - 1) = onEvents { ft with ct := (Ct.ctStats ft.ct (2 ^ 64 - 1)).1 } (Ct.destroy ft.ct) from rfl).trans (onEvents_ct _ _ _)

theorem endTime_le {M : Nat} : ∀ (ops : List Op) (t : Nat), t ≤ M → (∀ o ∈ ops, timeOf o ≤ M) → endTime t ops ≤ M
  | [], _, h, _ => h
  | o :: os, _, _, h => endTime_le os (timeOf o) (h o List.mem_cons_self) (fun x hx => h x (List.mem_cons_of_mem _ hx))

theorem toNanos_wrap (nsec : Int) : toNanos true maxTime nsec = .ok ((nsec - 1000000000) % 2 ^ 64).toNat := by
  unfold toNanos maxTime
  simp only [Bool.true_or, if_true]
  congr 2
  omega

end Nfqlb.Frag
