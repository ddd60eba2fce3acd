import Verif.Spec.FlowLb
import Verif.Proof.FlowSet

/-! Reference counters of load-balancers. -/

set_option autoImplicit false

namespace Nfqlb.FlowLb

open Nfqlb Nfqlb.Spec Nfqlb.Spec.FL Nfqlb.Spec.FLB Nfqlb.Flow

/-- The load-balancers are those with a positive number of references, and the counters are these numbers. -/
structure Bal (st : St) (R : Nat → Nat) : Prop where
  null : st.heap 0 = none
  pos : 1 ≤ st.next
  fresh : ∀ p, st.next ≤ p → st.heap p = none
  count : ∀ p lb, st.heap p = some lb → lb.refCounter = R p ∧ 0 < R p
  dead : ∀ p, p ≠ 0 → st.heap p = none → R p = 0
  listed : ∀ p, p ∈ st.lblist ↔ st.heap p ≠ none
  nodup : st.lblist.Nodup
  uniq : ∀ p q a b, st.heap p = some a → st.heap q = some b → a.target = b.target → p = q

def inc (R : Nat → Nat) (q : Nat) : Nat → Nat := fun p => if p = q then R p + 1 else R p
def dec (R : Nat → Nat) (q : Nat) : Nat → Nat := fun p => if p = q then R p - 1 else R p

/-- The same flows. -/
def SameFlows (a b : St) : Prop := a.fset = b.fset

theorem setLB_self (h : Nat → Option LB) (p : Nat) (x : Option LB) : setLB h p x p = x := by simp [setLB]
theorem setLB_ne (h : Nat → Option LB) {p q : Nat} (hn : q ≠ p) (x : Option LB) : setLB h p x q = h q := by simp [setLB, hn]

theorem Bal.congr {st : St} {R R' : Nat → Nat} (h : Bal st R) (hr : ∀ p, p ≠ 0 → R' p = R p) : Bal st R' := by
  refine ⟨h.null, h.pos, h.fresh, ?_, fun p h0 hp => by rw [hr p h0]; exact h.dead p h0 hp, h.listed, h.nodup, h.uniq⟩
  intro p lb hp
  have h0 : p ≠ 0 := by rintro rfl; rw [h.null] at hp; cases hp
  rw [hr p h0]; exact h.count p lb hp

/-- Changing a counter. -/
theorem Bal.change {st : St} {R : Nat → Nat} (h : Bal st R) {p : Nat} {lb : LB} (hp : st.heap p = some lb) (n : Nat) (hn : 0 < n) :
    Bal { st with heap := setLB st.heap p (some { lb with refCounter := (n : Int) }) } (fun q => if q = p then n else R q) := by
  have hsome : ∀ q, setLB st.heap p (some { lb with refCounter := (n : Int) }) q ≠ none ↔ st.heap q ≠ none := by
    intro q
    by_cases hq : q = p
    · subst hq; rw [setLB_self, hp]; simp
    · rw [setLB_ne _ hq]
  have htgt : ∀ q a, setLB st.heap p (some { lb with refCounter := (n : Int) }) q = some a → ∃ a', st.heap q = some a' ∧ a'.target = a.target := by
    intro q a ha
    by_cases hq : q = p
    · subst hq; rw [setLB_self] at ha; cases ha; exact ⟨lb, hp, rfl⟩
    · rw [setLB_ne _ hq] at ha; exact ⟨a, ha, rfl⟩
  have hnone : ∀ q, setLB st.heap p (some { lb with refCounter := (n : Int) }) q = none ↔ st.heap q = none := by
    intro q
    have := hsome q
    constructor
    · intro h1; by_cases h2 : st.heap q = none
      · exact h2
      · exact absurd h1 (this.2 h2)
    · intro h1; by_cases h2 : setLB st.heap p (some { lb with refCounter := (n : Int) }) q = none
      · exact h2
      · exact absurd h1 (this.1 h2)
  refine ⟨(hnone 0).2 h.null, h.pos, fun q hq => (hnone q).2 (h.fresh q hq), ?_, ?_, ?_, h.nodup, ?_⟩
  · intro q a ha
    by_cases hq : q = p
    · subst hq
      dsimp only at ha ⊢
      rw [setLB_self] at ha
      cases ha
      rw [if_pos rfl]
      exact ⟨rfl, hn⟩
    · dsimp only at ha ⊢
      rw [setLB_ne _ hq] at ha
      rw [if_neg hq]
      exact h.count q a ha
  · intro q h0 hq
    have hq2 := (hnone q).1 hq
    have hne : q ≠ p := by rintro rfl; rw [hp] at hq2; cases hq2
    rw [if_neg hne]
    exact h.dead q h0 hq2
  · intro q
    dsimp only
    rw [h.listed q, hsome q]
  · intro q r a b ha hb hab
    obtain ⟨a', h1, h2⟩ := htgt q a ha
    obtain ⟨b', h3, h4⟩ := htgt r b hb
    exact h.uniq q r a' b' h1 h3 (by rw [h2, h4, hab])

theorem lock_ok {st : St} {R : Nat → Nat} (h : Bal st R) {p : Nat} (hp : 0 < R p) (h0 : p ≠ 0) :
    ∃ st', lock st p = .ok st' ∧ st'.fset = st.fset ∧ Bal st' (inc R p) ∧ (∀ q l, st.heap q = some l → ∃ l', st'.heap q = some l' ∧ l'.target = l.target ∧ l'.seg = l.seg) := by
  unfold lock
  cases hh : st.heap p with
  | none => have := h.dead p h0 hh; omega
  | some lb =>
    obtain ⟨h1, h2⟩ := h.count p lb hh
    refine ⟨_, rfl, rfl, ?_, ?_⟩
    · have := h.change hh (R p + 1) (by omega)
      rw [show ((R p + 1 : Nat) : Int) = lb.refCounter + 1 by omega] at this
      refine this.congr ?_
      intro q _
      unfold inc
      by_cases hq : q = p
      · rw [if_pos hq, if_pos hq, hq]
      · rw [if_neg hq, if_neg hq]
    · intro q l hl
      dsimp only
      by_cases hq : q = p
      · subst hq
        rw [hh] at hl
        cases hl
        rw [setLB_self]; exact ⟨_, rfl, rfl, rfl⟩
      · rw [setLB_ne _ hq]; exact ⟨l, hl, rfl, rfl⟩

theorem lock_fset {st st' : St} {p : Nat} (h : lock st p = .ok st') : st'.fset = st.fset := by
  unfold lock at h
  split at h
  · cases h
  · cases h; rfl

theorem release_fset {st st' : St} {p : Nat} (h : release st p = .ok st') : st'.fset = st.fset := by
  unfold release at h
  split at h
  · cases h; rfl
  · split at h
    · cases h
    · dsimp only at h
      split at h
      · cases h
      · split at h
        · cases h; rfl
        · cases h; rfl

theorem release_ok {st : St} {R : Nat → Nat} (h : Bal st R) {p : Nat} (hp : 0 < R p) (h0 : p ≠ 0) :
    ∃ st', release st p = .ok st' ∧ st'.fset = st.fset ∧ Bal st' (dec R p) ∧ (∀ q l, st.heap q = some l → (q ≠ p ∨ 1 < R p) → ∃ l', st'.heap q = some l' ∧ l'.target = l.target ∧ l'.seg = l.seg) := by
  unfold release
  rw [if_neg h0]
  cases hh : st.heap p with
  | none => have := h.dead p h0 hh; omega
  | some lb =>
    obtain ⟨h1, h2⟩ := h.count p lb hh
    dsimp only
    rw [if_neg (by omega)]
    by_cases h3 : lb.refCounter - 1 = 0
    · rw [if_pos h3]
      have hR : R p = 1 := by omega
      refine ⟨_, rfl, rfl, ?_, ?_⟩
      · have hnone : ∀ q, setLB st.heap p none q = none ↔ (q = p ∨ st.heap q = none) := by
          intro q
          by_cases hq : q = p
          · subst hq; rw [setLB_self]; simp
          · rw [setLB_ne _ hq]; simp [hq]
        have hsome : ∀ q a, setLB st.heap p none q = some a → q ≠ p ∧ st.heap q = some a := by
          intro q a ha
          by_cases hq : q = p
          · subst hq; rw [setLB_self] at ha; cases ha
          · rw [setLB_ne _ hq] at ha; exact ⟨hq, ha⟩
        refine ⟨(hnone 0).2 (.inr h.null), h.pos, fun q hq => (hnone q).2 (.inr (h.fresh q hq)), ?_, ?_, ?_, h.nodup.erase p, ?_⟩
        · intro q a ha
          obtain ⟨k1, k2⟩ := hsome q a ha
          unfold dec; rw [if_neg k1]
          exact h.count q a k2
        · intro q k0 hq
          unfold dec
          rcases (hnone q).1 hq with rfl | hq
          · rw [if_pos rfl]; omega
          · have := h.dead q k0 hq
            split <;> omega
        · intro q
          dsimp only
          rw [h.nodup.mem_erase_iff, h.listed q]
          constructor
          · rintro ⟨k1, k2⟩ hn
            rcases (hnone q).1 hn with k | k
            · exact k1 k
            · exact k2 k
          · intro k
            exact ⟨fun hq => k ((hnone q).2 (.inl hq)), fun hq => k ((hnone q).2 (.inr hq))⟩
        · intro q r a b ha hb hab
          exact h.uniq q r a b (hsome q a ha).2 (hsome r b hb).2 hab
      · intro q l hl hc
        rcases hc with hc | hc
        · dsimp only; rw [setLB_ne _ hc]; exact ⟨l, hl, rfl, rfl⟩
        · omega
    · rw [if_neg h3]
      refine ⟨_, rfl, rfl, ?_, ?_⟩
      · have := h.change hh (R p - 1) (by omega)
        rw [show ((R p - 1 : Nat) : Int) = lb.refCounter - 1 by omega] at this
        refine this.congr ?_
        intro q _
        unfold dec
        by_cases hq : q = p
        · rw [if_pos hq, if_pos hq, hq]
        · rw [if_neg hq, if_neg hq]
      · intro q l hl _
        dsimp only
        by_cases hq : q = p
        · subst hq
          rw [hh] at hl
          cases hl
          rw [setLB_self]; exact ⟨_, rfl, rfl, rfl⟩
        · rw [setLB_ne _ hq]; exact ⟨l, hl, rfl, rfl⟩

theorem search_ok {heap : Nat → Option LB} (target : List Char) : ∀ (l : List Nat), (∀ p ∈ l, heap p ≠ none) →
    (∃ p ∈ l, search heap target l = .ok (some p) ∧ ∃ lb, heap p = some lb ∧ lb.target = target) ∨ (search heap target l = .ok none ∧ ∀ p ∈ l, ∀ lb, heap p = some lb → lb.target ≠ target)
  | [], _ => .inr ⟨rfl, by simp⟩
  | p :: l, h => by
    cases hp : heap p with
    | none => exact absurd hp (h p (by simp))
    | some lb =>
      by_cases ht : lb.target = target
      · exact .inl ⟨p, by simp, by simp only [search, hp, ht, if_true], lb, hp, ht⟩
      · rcases search_ok target l (fun q hq => h q (by simp [hq])) with ⟨q, hq, e, k⟩ | ⟨e, k⟩
        · exact .inl ⟨q, by simp [hq], by simp only [search, hp, ht, if_false]; exact e, k⟩
        · refine .inr ⟨by simp only [search, hp, ht, if_false]; exact e, ?_⟩
          intro q hq l' hl'
          simp only [List.mem_cons] at hq
          rcases hq with rfl | hq
          · rw [hp] at hl'; cases hl'; exact ht
          · exact k q hq l' hl'

theorem find_ok {env : Env} {st : St} {R : Nat → Nat} (h : Bal st R) (t : List Char) :
    (findOrCreate env st (some t) = .ok (st, 0)) ∨
    ∃ st' q, findOrCreate env st (some t) = .ok (st', q) ∧ q ≠ 0 ∧ st'.fset = st.fset ∧ Bal st' (inc R q) ∧ (∃ l, st'.heap q = some l ∧ l.target = t) ∧
      (∀ q l, st.heap q = some l → ∃ l', st'.heap q = some l' ∧ l'.target = l.target) := by
  unfold findOrCreate
  dsimp only
  rcases search_ok t st.lblist (fun p hp => (h.listed p).1 hp) with ⟨p, hp, e, lb, hl, ht⟩ | ⟨e, k⟩
  · right
    rw [e]
    simp only [Res.ok_bind, Res.pure_eq]
    have h0 : p ≠ 0 := by rintro rfl; rw [h.null] at hl; cases hl
    obtain ⟨st', e1, e2, e3, e4⟩ := lock_ok h (h.count p lb hl).2 h0
    rw [e1]
    obtain ⟨l', m1, m2, m3⟩ := e4 p lb hl
    refine ⟨st', p, rfl, h0, e2, e3, ⟨l', m1, by rw [m2, ht]⟩, ?_⟩
    intro q l hq
    obtain ⟨x, y1, y2, _⟩ := e4 q l hq
    exact ⟨x, y1, y2⟩
  · rw [e]
    simp only [Res.ok_bind, Res.pure_eq]
    cases hs : env.shm t with
    | none => exact .inl rfl
    | some seg =>
      right
      have hpos := h.pos
      have hfr := h.fresh st.next (by omega)
      have hsome : ∀ q a, setLB st.heap st.next (some ⟨1, t, seg⟩) q = some a → (q = st.next ∧ a = ⟨1, t, seg⟩) ∨ (q ≠ st.next ∧ st.heap q = some a) := by
        intro q a ha
        by_cases hq : q = st.next
        · subst hq; rw [setLB_self] at ha; cases ha; exact .inl ⟨rfl, rfl⟩
        · rw [setLB_ne _ hq] at ha; exact .inr ⟨hq, ha⟩
      refine ⟨_, _, rfl, by omega, rfl, ?_, ⟨_, setLB_self _ _ _, rfl⟩, ?_⟩
      · refine ⟨?_, by dsimp only; omega, ?_, ?_, ?_, ?_, ?_, ?_⟩
        · dsimp only; rw [setLB_ne _ (by omega)]; exact h.null
        · intro p hp; dsimp only at hp ⊢; rw [setLB_ne _ (by omega)]; exact h.fresh p (by omega)
        · intro p lb hp
          unfold inc
          rcases hsome p lb hp with ⟨rfl, rfl⟩ | ⟨h1, h2⟩
          · rw [if_pos rfl, h.dead st.next (by omega) hfr]; exact ⟨rfl, by omega⟩
          · rw [if_neg h1]; exact h.count p lb h2
        · intro p h0 hp
          dsimp only at hp
          unfold inc
          by_cases hq : p = st.next
          · subst hq; rw [setLB_self] at hp; cases hp
          · rw [setLB_ne _ hq] at hp; rw [if_neg hq]; exact h.dead p h0 hp
        · intro p
          dsimp only
          rw [List.mem_cons, h.listed p]
          by_cases hq : p = st.next
          · subst hq; rw [setLB_self]; simp
          · rw [setLB_ne _ hq]; simp [hq]
        · dsimp only
          rw [List.nodup_cons]
          exact ⟨fun hm => (h.listed _).1 hm hfr, h.nodup⟩
        · intro p q a b ha hb hab
          rcases hsome p a ha with ⟨rfl, rfl⟩ | ⟨h1, h2⟩ <;> rcases hsome q b hb with ⟨rfl, rfl⟩ | ⟨h3, h4⟩
          · rfl
          · exact absurd hab.symm (k q ((h.listed q).2 (by rw [h4]; simp)) b h4)
          · exact absurd hab (k p ((h.listed p).2 (by rw [h2]; simp)) a h2)
          · exact h.uniq p q a b h2 h4 hab
      · intro q l hl
        have : q ≠ st.next := by rintro rfl; rw [hfr] at hl; cases hl
        dsimp only
        rw [setLB_ne _ this]; exact ⟨l, hl, rfl⟩

end Nfqlb.FlowLb
