import Verif.Spec.LbRace

/-! Load-balancers and threads. -/

set_option autoImplicit false

namespace Nfqlb.LbRace

open Nfqlb Nfqlb.Spec.LbRace

structure Inv (s : St) : Prop where
  fresh : ∀ p, s.next ≤ p → s.ref p = 0 ∧ s.freed p = 0 ∧ p ∉ s.held ∧ (∀ ph, (p, ph) ∉ s.pend) ∧ p ∉ s.list
  count : ∀ p, s.ref p = s.held.count p
  live : ∀ p, 0 < s.ref p → s.freed p = 0 ∧ p ∈ s.list ∧ ∀ ph, (p, ph) ∉ s.pend
  listed : ∀ p ∈ s.list, s.freed p = 0 ∧ (0 < s.ref p ∨ (p, Phase.unlink) ∈ s.pend)
  nodup : s.list.Nodup
  pnodup : s.pend.Nodup
  unl : ∀ p, (p, Phase.unlink) ∈ s.pend → s.ref p = 0 ∧ s.freed p = 0 ∧ (p, Phase.free) ∉ s.pend ∧ p ∈ s.list
  fre : ∀ p, (p, Phase.free) ∈ s.pend → s.ref p = 0 ∧ s.freed p = 0 ∧ p ∉ s.list

theorem start_inv : Inv start := by
  refine ⟨?_, ?_, ?_, ?_, ?_, ?_, ?_, ?_⟩ <;> simp [start]

theorem put_self {α : Type} (f : Nat → α) (p : Nat) (x : α) : put f p x p = x := by simp [put]
theorem put_ne {α : Type} (f : Nat → α) {p q : Nat} (h : q ≠ p) (x : α) : put f p x q = f q := by simp [put, h]

theorem held_live {s : St} (h : Inv s) {p : Nat} (hp : p ∈ s.held) : 0 < s.ref p := by
  have := List.count_pos_iff.2 hp
  have := h.count p
  omega

/-- One more reference to a load-balancer with references. -/
theorem inc_inv {s : St} (h : Inv s) {p : Nat} (hp : 0 < s.ref p) : ∃ s', inc s p = .ok s' ∧ Inv s' := by
  obtain ⟨h1, h2, h3⟩ := h.live p hp
  unfold inc
  rw [if_neg (by omega)]
  refine ⟨_, rfl, ?_, ?_, ?_, ?_, h.nodup, h.pnodup, ?_, ?_⟩
  · intro q hq
    obtain ⟨a, b, c, d, e⟩ := h.fresh q hq
    have hqp : q ≠ p := by rintro rfl; omega
    dsimp only
    rw [put_ne _ hqp]
    exact ⟨a, b, by simp [hqp, c], d, e⟩
  · intro q
    dsimp only
    rw [List.count_cons]
    by_cases hq : q = p
    · subst hq; rw [put_self, h.count]; simp
    · rw [put_ne _ hq, h.count, if_neg (by simp; exact fun h => hq h.symm)]; simp
  · intro q hq
    dsimp only at hq ⊢
    by_cases hqp : q = p
    · subst hqp; exact ⟨h1, h2, h3⟩
    · rw [put_ne _ hqp] at hq; exact h.live q hq
  · intro q hq
    dsimp only at hq ⊢
    obtain ⟨a, b⟩ := h.listed q hq
    refine ⟨a, ?_⟩
    by_cases hqp : q = p
    · subst hqp; rw [put_self]; left; omega
    · rw [put_ne _ hqp]; exact b
  · intro q hq
    dsimp only at hq ⊢
    have hqp : q ≠ p := by rintro rfl; exact h3 _ hq
    rw [put_ne _ hqp]
    exact h.unl q hq
  · intro q hq
    dsimp only at hq ⊢
    have hqp : q ≠ p := by rintro rfl; exact h3 _ hq
    rw [put_ne _ hqp]
    exact h.fre q hq

theorem search_inv {s : St} (t : Nat) : ∀ (l : List Nat), (∀ p ∈ l, s.freed p = 0) → (∃ p ∈ l, search s t l = .ok (some p) ∧ s.target p = t) ∨ (search s t l = .ok none ∧ ∀ p ∈ l, s.target p ≠ t)
  | [], _ => .inr ⟨rfl, by simp⟩
  | a :: l, h => by
    simp only [search]
    rw [if_neg (by simp [h a (by simp)])]
    by_cases ht : s.target a = t
    · rw [if_pos ht]; exact .inl ⟨a, by simp, rfl, ht⟩
    · rw [if_neg ht]
      rcases search_inv t l (fun p hp => h p (by simp [hp])) with ⟨p, hp, e⟩ | ⟨e, k⟩
      · exact .inl ⟨p, by simp [hp], e⟩
      · refine .inr ⟨e, ?_⟩
        intro p hp
        simp only [List.mem_cons] at hp
        rcases hp with rfl | hp
        · exact ht
        · exact k p hp

theorem find_inv {s : St} (h : Inv s) (t : Nat) (hq : ∀ p, (p, Phase.unlink) ∉ s.pend) : ∃ s', findOrCreate s t = .ok s' ∧ Inv s' := by
  unfold findOrCreate
  rcases search_inv t s.list (fun p hp => (h.listed p hp).1) with ⟨p, hp, e, _⟩ | ⟨e, _⟩
  · rw [e]
    simp only [Res.ok_bind]
    have : 0 < s.ref p := by
      rcases (h.listed p hp).2 with h1 | h1
      · exact h1
      · exact absurd h1 (hq p)
    exact inc_inv h this
  · rw [e]
    simp only [Res.ok_bind, Res.pure_eq]
    obtain ⟨n1, n2, n3, n4, n5⟩ := h.fresh s.next (Nat.le_refl _)
    refine ⟨_, rfl, ?_, ?_, ?_, ?_, ?_, h.pnodup, ?_, ?_⟩
    · intro q hq
      dsimp only at hq ⊢
      obtain ⟨a, b, c, d, e⟩ := h.fresh q (by omega)
      have hqp : q ≠ s.next := by omega
      rw [put_ne _ hqp]
      exact ⟨a, b, by simp [hqp, c], d, by simp [hqp, e]⟩
    · intro q
      dsimp only
      rw [List.count_cons]
      by_cases hq : q = s.next
      · subst hq; rw [put_self, List.count_eq_zero.2 n3]; simp
      · rw [put_ne _ hq, h.count, if_neg (by simp; exact fun h => hq h.symm)]; simp
    · intro q hq
      dsimp only at hq ⊢
      by_cases hqp : q = s.next
      · subst hqp; exact ⟨n2, by simp, n4⟩
      · rw [put_ne _ hqp] at hq
        obtain ⟨a, b, c⟩ := h.live q hq
        exact ⟨a, by simp [b], c⟩
    · intro q hq
      dsimp only at hq ⊢
      simp only [List.mem_cons] at hq
      by_cases hqp : q = s.next
      · subst hqp; rw [put_self]; exact ⟨n2, .inl (by decide)⟩
      · rw [put_ne _ hqp]
        rcases hq with hq | hq
        · exact absurd hq hqp
        · exact h.listed q hq
    · exact List.nodup_cons.2 ⟨n5, h.nodup⟩
    · intro q hq
      dsimp only at hq ⊢
      have hqp : q ≠ s.next := by rintro rfl; exact n4 _ hq
      rw [put_ne _ hqp]
      obtain ⟨a, b, c, d⟩ := h.unl q hq
      exact ⟨a, b, c, by simp [d]⟩
    · intro q hq
      dsimp only at hq ⊢
      have hqp : q ≠ s.next := by rintro rfl; exact n4 _ hq
      rw [put_ne _ hqp]
      obtain ⟨a, b, c⟩ := h.fre q hq
      exact ⟨a, b, by simp [hqp, c]⟩

theorem dec_inv {s : St} (h : Inv s) {p : Nat} (hp : p ∈ s.held) : ∃ s', dec s p = .ok s' ∧ Inv s' := by
  have hr := held_live h hp
  obtain ⟨h1, h2, h3⟩ := h.live p hr
  have hlt : p < s.next := by
    rcases Nat.lt_or_ge p s.next with h4 | h4
    · exact h4
    · exact absurd hp (h.fresh p h4).2.2.1
  -- the counters
  have hcount : ∀ q, put s.ref p (s.ref p - 1) q = (s.held.erase p).count q := by
    intro q
    rw [List.count_erase]
    by_cases hq : q = p
    · subst hq
      rw [put_self, h.count]
      have := List.count_pos_iff.2 hp
      simp
      omega
    · rw [put_ne _ hq, h.count, if_neg (by simp; exact fun h => hq h.symm)]; simp
  unfold dec
  rw [if_neg (by omega)]
  simp only [put_self]
  rw [if_neg (by omega)]
  by_cases h0 : s.ref p - 1 = 0
  · rw [if_pos h0]
    refine ⟨_, rfl, ?_, hcount, ?_, ?_, h.nodup, ?_, ?_, ?_⟩
    · intro q hq
      dsimp only at hq ⊢
      obtain ⟨a, b, c, d, e⟩ := h.fresh q hq
      have hqp : q ≠ p := by omega
      rw [put_ne _ hqp]
      refine ⟨a, b, fun hc => c (List.mem_of_mem_erase hc), ?_, e⟩
      intro ph hc
      simp only [List.mem_cons, Prod.mk.injEq] at hc
      rcases hc with ⟨hc, _⟩ | hc
      · exact hqp hc
      · exact d ph hc
    · intro q hq
      dsimp only at hq ⊢
      by_cases hqp : q = p
      · subst hqp; rw [put_self] at hq; omega
      · rw [put_ne _ hqp] at hq
        obtain ⟨a, b, c⟩ := h.live q hq
        refine ⟨a, b, ?_⟩
        intro ph hc
        simp only [List.mem_cons, Prod.mk.injEq] at hc
        rcases hc with ⟨hc, _⟩ | hc
        · exact hqp hc
        · exact c ph hc
    · intro q hq
      dsimp only at hq ⊢
      obtain ⟨a, b⟩ := h.listed q hq
      refine ⟨a, ?_⟩
      by_cases hqp : q = p
      · subst hqp; right; simp
      · rw [put_ne _ hqp]
        rcases b with b | b
        · exact .inl b
        · exact .inr (by simp [b])
    · exact List.nodup_cons.2 ⟨h3 _, h.pnodup⟩
    · intro q hq
      dsimp only at hq ⊢
      by_cases hqp : q = p
      · subst hqp
        rw [put_self]
        exact ⟨h0, h1, by simp [h3], h2⟩
      · rw [put_ne _ hqp]
        simp only [List.mem_cons, Prod.mk.injEq, hqp, false_and, false_or] at hq ⊢
        exact h.unl q hq
    · intro q hq
      dsimp only at hq ⊢
      by_cases hqp : q = p
      · subst hqp
        simp only [List.mem_cons, Prod.mk.injEq, reduceCtorEq, and_false, false_or] at hq
        exact absurd hq (h3 _)
      · rw [put_ne _ hqp]
        simp only [List.mem_cons, Prod.mk.injEq, hqp, false_and, false_or] at hq ⊢
        exact h.fre q hq
  · rw [if_neg h0]
    refine ⟨_, rfl, ?_, hcount, ?_, ?_, h.nodup, h.pnodup, ?_, ?_⟩
    · intro q hq
      dsimp only at hq ⊢
      obtain ⟨a, b, c, d, e⟩ := h.fresh q hq
      have hqp : q ≠ p := by omega
      rw [put_ne _ hqp]
      exact ⟨a, b, fun hc => c (List.mem_of_mem_erase hc), d, e⟩
    · intro q hq
      dsimp only at hq ⊢
      by_cases hqp : q = p
      · subst hqp; exact ⟨h1, h2, h3⟩
      · rw [put_ne _ hqp] at hq; exact h.live q hq
    · intro q hq
      dsimp only at hq ⊢
      obtain ⟨a, b⟩ := h.listed q hq
      refine ⟨a, ?_⟩
      by_cases hqp : q = p
      · subst hqp; rw [put_self]; left; omega
      · rw [put_ne _ hqp]; exact b
    · intro q hq
      dsimp only at hq ⊢
      have hqp : q ≠ p := by rintro rfl; exact h3 _ hq
      rw [put_ne _ hqp]
      exact h.unl q hq
    · intro q hq
      dsimp only at hq ⊢
      have hqp : q ≠ p := by rintro rfl; exact h3 _ hq
      rw [put_ne _ hqp]
      exact h.fre q hq

theorem unlink_inv {s : St} (h : Inv s) {p : Nat} (hp : (p, Phase.unlink) ∈ s.pend) : ∃ s', move s (.unlink p) = .ok s' ∧ Inv s' := by
  obtain ⟨u1, u2, u3, u4⟩ := h.unl p hp
  simp only [move]
  rw [if_pos hp, if_neg]
  · have hmem : ∀ x : Nat × Phase, x ∈ s.pend.erase (p, .unlink) ↔ x ≠ (p, .unlink) ∧ x ∈ s.pend := fun x => h.pnodup.mem_erase_iff
    have hlist : ∀ q, q ∈ s.list.erase p ↔ q ≠ p ∧ q ∈ s.list := fun q => h.nodup.mem_erase_iff
    refine ⟨_, rfl, ?_, h.count, ?_, ?_, h.nodup.erase _, ?_, ?_, ?_⟩
    · intro q hq
      dsimp only at hq ⊢
      obtain ⟨a, b, c, d, e⟩ := h.fresh q hq
      have hqp : q ≠ p := by rintro rfl; exact d _ hp
      refine ⟨a, b, c, ?_, fun hc => e ((hlist q).1 hc).2⟩
      intro ph hc
      simp only [List.mem_cons, Prod.mk.injEq, hqp, false_and, false_or] at hc
      exact d ph ((hmem _).1 hc).2
    · intro q hq
      dsimp only at hq ⊢
      obtain ⟨a, b, c⟩ := h.live q hq
      have hqp : q ≠ p := by rintro rfl; omega
      refine ⟨a, (hlist q).2 ⟨hqp, b⟩, ?_⟩
      intro ph hc
      simp only [List.mem_cons, Prod.mk.injEq, hqp, false_and, false_or] at hc
      exact c ph ((hmem _).1 hc).2
    · intro q hq
      dsimp only at hq ⊢
      obtain ⟨hqp, hq⟩ := (hlist q).1 hq
      obtain ⟨a, b⟩ := h.listed q hq
      refine ⟨a, ?_⟩
      rcases b with b | b
      · exact .inl b
      · exact .inr (by simp only [List.mem_cons]; right; exact (hmem _).2 ⟨by simp [hqp], b⟩)
    · refine List.nodup_cons.2 ⟨?_, h.pnodup.erase _⟩
      intro hc
      exact u3 ((hmem _).1 hc).2
    · intro q hq
      dsimp only at hq ⊢
      simp only [List.mem_cons, Prod.mk.injEq, reduceCtorEq, and_false, false_or] at hq
      obtain ⟨e1, e2⟩ := (hmem _).1 hq
      have hqp : q ≠ p := by rintro rfl; exact e1 rfl
      obtain ⟨a, b, c, d⟩ := h.unl q e2
      refine ⟨a, b, ?_, (hlist q).2 ⟨hqp, d⟩⟩
      intro hc
      simp only [List.mem_cons, Prod.mk.injEq, hqp, false_and, false_or] at hc
      exact c ((hmem _).1 hc).2
    · intro q hq
      dsimp only at hq ⊢
      by_cases hqp : q = p
      · subst hqp
        exact ⟨u1, u2, fun hc => ((hlist q).1 hc).1 rfl⟩
      · simp only [List.mem_cons, Prod.mk.injEq, hqp, false_and, false_or] at hq
        obtain ⟨a, b, c⟩ := h.fre q ((hmem _).1 hq).2
        exact ⟨a, b, fun hc => c ((hlist q).1 hc).2⟩
  · rintro (hc | hc)
    · exact hc u2
    · simp only [List.any_eq_true, decide_eq_true_eq] at hc
      obtain ⟨q, hq, hc⟩ := hc
      exact hc (h.listed q hq).1

theorem free_inv {s : St} (h : Inv s) {p : Nat} (hp : (p, Phase.free) ∈ s.pend) : ∃ s', move s (.free p) = .ok s' ∧ Inv s' := by
  obtain ⟨f1, f2, f3⟩ := h.fre p hp
  have hun : (p, Phase.unlink) ∉ s.pend := fun hc => (h.unl p hc).2.2.1 hp
  simp only [move]
  rw [if_pos hp, if_neg (by omega)]
  have hmem : ∀ x : Nat × Phase, x ∈ s.pend.erase (p, .free) ↔ x ≠ (p, .free) ∧ x ∈ s.pend := fun x => h.pnodup.mem_erase_iff
  refine ⟨_, rfl, ?_, h.count, ?_, ?_, h.nodup, h.pnodup.erase _, ?_, ?_⟩
  · intro q hq
    dsimp only at hq ⊢
    obtain ⟨a, b, c, d, e⟩ := h.fresh q hq
    have hqp : q ≠ p := by rintro rfl; exact d _ hp
    rw [put_ne _ hqp]
    exact ⟨a, b, c, fun ph hc => d ph ((hmem _).1 hc).2, e⟩
  · intro q hq
    dsimp only at hq ⊢
    obtain ⟨a, b, c⟩ := h.live q hq
    have hqp : q ≠ p := by rintro rfl; omega
    rw [put_ne _ hqp]
    exact ⟨a, b, fun ph hc => c ph ((hmem _).1 hc).2⟩
  · intro q hq
    dsimp only at hq ⊢
    have hqp : q ≠ p := by rintro rfl; exact f3 hq
    obtain ⟨a, b⟩ := h.listed q hq
    rw [put_ne _ hqp]
    refine ⟨a, ?_⟩
    rcases b with b | b
    · exact .inl b
    · exact .inr ((hmem _).2 ⟨by simp, b⟩)
  · intro q hq
    dsimp only at hq ⊢
    have hq2 := ((hmem _).1 hq).2
    have hqp : q ≠ p := by rintro rfl; exact hun hq2
    obtain ⟨a, b, c, d⟩ := h.unl q hq2
    rw [put_ne _ hqp]
    exact ⟨a, b, fun hc => c ((hmem _).1 hc).2, d⟩
  · intro q hq
    dsimp only at hq ⊢
    obtain ⟨e1, hq⟩ := (hmem _).1 hq
    have hqp : q ≠ p := by rintro rfl; exact e1 rfl
    rw [put_ne _ hqp]
    exact h.fre q hq

/-- Every move is defined, and keeps the invariant. -/
theorem move_inv {s : St} (h : Inv s) (m : Mv) (hm : ∀ t, m = .find t → ∀ p, (p, Phase.unlink) ∉ s.pend) : ∃ s', move s m = .ok s' ∧ Inv s' := by
  cases m with
  | copy p =>
    simp only [move]
    by_cases hp : p ∈ s.held
    · rw [if_pos hp]; exact inc_inv h (held_live h hp)
    · rw [if_neg hp]; exact ⟨s, rfl, h⟩
  | find t => exact find_inv h t (hm t rfl)
  | release p =>
    simp only [move]
    by_cases hp : p ∈ s.held
    · rw [if_pos hp]; exact dec_inv h hp
    · rw [if_neg hp]; exact ⟨s, rfl, h⟩
  | unlink p =>
    by_cases hp : (p, Phase.unlink) ∈ s.pend
    · exact unlink_inv h hp
    · simp only [move]; rw [if_neg hp]; exact ⟨s, rfl, h⟩
  | free p =>
    by_cases hp : (p, Phase.free) ∈ s.pend
    · exact free_inv h hp
    · simp only [move]; rw [if_neg hp]; exact ⟨s, rfl, h⟩
  | use p =>
    simp only [move]
    by_cases hp : p ∈ s.held
    · rw [if_pos hp, if_neg (by simp [(h.live p (held_live h hp)).1])]; exact ⟨s, rfl, h⟩
    · rw [if_neg hp]; exact ⟨s, rfl, h⟩

theorem quiet_inv {s : St} (h : Quiet s) : Inv s := by
  induction h with
  | start => exact start_inv
  | move m _ hm e ih =>
    obtain ⟨s', e', k⟩ := move_inv ih m hm
    rw [e] at e'
    cases e'
    exact k

end Nfqlb.LbRace
