import Verif.Proof.FlowSet

/-! Which definitions of flows are undefined. -/

set_option autoImplicit false

namespace Nfqlb.Flow

open Nfqlb Nfqlb.Spec.RS Nfqlb.Spec.FL

theorem sort_ub (fq : List Flow → List Flow) (l : List Flow) : sortFlows fq l = .ub ↔ ∃ f ∈ l, ∃ g ∈ l, 2147483647 < f.priority - g.priority := by
  rcases sort_cases fq l with h | ⟨h1, h2⟩
  · constructor
    · intro h'; rw [h] at h'; cases h'
    · rintro ⟨f, hf, g, hg, hfg⟩
      exfalso
      unfold sortFlows at h
      rw [if_pos] at h
      · cases h
      · rw [List.any_eq_true]
        refine ⟨f, hf, ?_⟩
        rw [List.any_eq_true]
        refine ⟨g, hg, ?_⟩
        unfold diffOverflows
        rw [decide_eq_true_eq]
        exact .inr hfg
  · constructor
    · intro _
      apply Classical.byContradiction
      intro hn
      apply h1
      intro f hf g hg
      apply Classical.byContradiction
      intro hc
      exact hn ⟨f, hf, g, hg, by omega⟩
    · intro _; exact h2

theorem sort_not {fq : List Flow → List Flow} {l : List Flow} : sortFlows fq l = .ok (fq l) ∨ sortFlows fq l = .ub := by
  rcases sort_cases fq l with h | ⟨_, h⟩
  · exact .inl h
  · exact .inr h

theorem define_ub {rq : (Nat → Nat) → List Nat → List Nat} (hq : QSort rq) (fq : List Flow → List Flow) {set : FlowSet} (hs : SetOK set) (a : Args) :
    flowDefine rq fq set a = .ub ↔ ∃ name, a.name = some name ∧ name.length ≤ 1023 ∧
      (build rq a name = .ub ∨ (∃ f, build rq a name = .ok (some f)) ∧
        ∃ p ∈ a.priority :: (set.flows.filter (fun g => g.name ≠ name)).map (·.priority), ∃ q ∈ a.priority :: (set.flows.filter (fun g => g.name ≠ name)).map (·.priority), 2147483647 < p - q) := by
  cases hname : a.name with
  | none =>
    have e : flowDefine rq fq set a = .ok (set, false) := by unfold flowDefine; rw [hname]
    rw [e]
    refine ⟨fun h => (by cases h), ?_⟩
    rintro ⟨_, h, _⟩; cases h
  | some name =>
    by_cases hl : name.length ≥ 1024
    · have e : flowDefine rq fq set a = .ok (set, false) := by unfold flowDefine; rw [hname]; dsimp only; rw [if_pos hl]
      rw [e]
      refine ⟨fun h => (by cases h), ?_⟩
      rintro ⟨_, ⟨⟩, h, _⟩; omega
    · rcases build_cases hq a name with ⟨r, e, hr⟩ | ⟨hn, e⟩
      · cases r with
        | none =>
          have e2 : flowDefine rq fq set a = .ok (set, false) := by unfold flowDefine; rw [hname]; dsimp only; rw [if_neg hl, e]; rfl
          rw [e2]
          refine ⟨fun h => (by cases h), ?_⟩
          rintro ⟨_, ⟨⟩, _, h | ⟨⟨f, h⟩, _⟩⟩
          · rw [e] at h; cases h
          · rw [e] at h; cases h
        | some f =>
          obtain ⟨hf, f1, f2, f3, f4⟩ := hr f rfl
          rw [List.take_of_length_le (by omega)] at f1
          obtain ⟨p1, p2, p3⟩ := putFlow_spec f name set.flows hs.short hs.names
          have hold : freeOld (putFlow f name set.flows).2 = .ok () := by
            cases ho : (putFlow f name set.flows).2 with
            | none => rfl
            | some g => exact flowFree_ok (hs.ok g (p2 g ho).1)
          have hpr : ∀ p, (∃ x ∈ (putFlow f name set.flows).1, x.priority = p) ↔ p ∈ a.priority :: (set.flows.filter (fun g => g.name ≠ name)).map (·.priority) := by
            intro p
            rw [List.mem_cons, List.mem_map]
            constructor
            · rintro ⟨x, hx, rfl⟩
              have hx := (p1.mem_iff).1 hx
              rw [List.mem_cons] at hx
              rcases hx with rfl | hx
              · exact .inl f2
              · exact .inr ⟨x, hx, rfl⟩
            · rintro (rfl | ⟨x, hx, rfl⟩)
              · exact ⟨f, (p1.mem_iff).2 (by simp), f2⟩
              · exact ⟨x, (p1.mem_iff).2 (List.mem_cons_of_mem _ hx), rfl⟩
          have e2 : flowDefine rq fq set a = .ub ↔ sortFlows fq (putFlow f name set.flows).1 = .ub := by
            unfold flowDefine
            rw [hname]
            dsimp only
            rw [if_neg hl, e]
            simp only [Res.ok_bind, Res.pure_eq, hold]
            rcases sort_not (fq := fq) (l := (putFlow f name set.flows).1) with h | h <;> rw [h] <;> simp
          rw [e2, sort_ub]
          constructor
          · rintro ⟨x, hx, y, hy, hxy⟩
            exact ⟨name, rfl, by omega, .inr ⟨⟨f, e⟩, x.priority, (hpr _).1 ⟨x, hx, rfl⟩, y.priority, (hpr _).1 ⟨y, hy, rfl⟩, hxy⟩⟩
          · rintro ⟨_, ⟨⟩, _, h | ⟨_, p, hp, q, hq', hpq⟩⟩
            · rw [e] at h; cases h
            · obtain ⟨x, hx, rfl⟩ := (hpr p).2 hp
              obtain ⟨y, hy, rfl⟩ := (hpr q).2 hq'
              exact ⟨x, hx, y, hy, hpq⟩
      · have e2 : flowDefine rq fq set a = .ub := by unfold flowDefine; rw [hname]; dsimp only; rw [if_neg hl, e]; rfl
        rw [e2]
        exact ⟨fun _ => ⟨name, rfl, by omega, .inl e⟩, fun _ => rfl⟩

end Nfqlb.Flow
