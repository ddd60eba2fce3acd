import Verif.Proof.FlowDef

/-! Sets of flows: names, order, lookup. -/

set_option autoImplicit false

namespace Nfqlb.Flow

open Nfqlb.Spec Nfqlb.Spec.FL Nfqlb.Spec.RS Nfqlb.RS

/-- The invariant of a set. -/
structure SetOK (set : FlowSet) : Prop where
  ok : ∀ f ∈ set.flows, FlowOK f
  short : ∀ f ∈ set.flows, f.name.length ≤ 1023
  names : set.flows.Pairwise (fun f g => f.name ≠ g.name)
  sorted : set.flows.Pairwise (fun f g => g.priority ≤ f.priority)

theorem sameName_iff {a b : List Char} (h : a.length ≤ 1023) : sameName a b = true ↔ a = b := by
  unfold sameName
  rw [beq_iff_eq, List.take_of_length_le (by omega)]
  constructor
  · intro he
    have hl := congrArg List.length he
    rw [List.length_take] at hl
    rw [he, List.take_of_length_le (by omega)]
  · rintro rfl
    rw [List.take_of_length_le (by omega)]

theorem filter_all {l : List Flow} {name : List Char} (h : ∀ g ∈ l, g.name ≠ name) : l.filter (fun g => g.name ≠ name) = l := by
  rw [List.filter_eq_self]
  intro g hg
  simpa using h g hg

theorem putFlow_spec (f : Flow) (name : List Char) : ∀ (l : List Flow), (∀ g ∈ l, g.name.length ≤ 1023) → l.Pairwise (fun f g => f.name ≠ g.name) →
    (putFlow f name l).1.Perm (f :: l.filter (fun g => g.name ≠ name)) ∧ (∀ g, (putFlow f name l).2 = some g → g ∈ l ∧ g.name = name) ∧
      ((putFlow f name l).2 = none → ∀ g ∈ l, g.name ≠ name)
  | [], _, _ => ⟨List.Perm.refl _, by intro g hg; simp [putFlow] at hg, by intro _ g hg; cases hg⟩
  | g :: l, hs, hn => by
    obtain ⟨hg, hn⟩ := List.pairwise_cons.1 hn
    unfold putFlow
    by_cases he : g.name = name
    · rw [if_pos ((sameName_iff (hs g (by simp))).2 he)]
      refine ⟨?_, ?_, by simp⟩
      · rw [List.filter_cons_of_neg (by simp [he]), filter_all (fun h hh => by rw [← he]; exact (hg h hh).symm)]
      · rintro x ⟨⟩; exact ⟨by simp, he⟩
    · rw [if_neg (fun hc => he ((sameName_iff (hs g (by simp))).1 hc))]
      obtain ⟨i1, i2, i3⟩ := putFlow_spec f name l (fun g hg => hs g (by simp [hg])) hn
      dsimp only
      refine ⟨?_, ?_, ?_⟩
      · rw [List.filter_cons_of_pos (by simp [he])]
        exact (i1.cons g).trans (List.Perm.swap _ _ _)
      · intro x hx
        obtain ⟨h1, h2⟩ := i2 x hx
        exact ⟨by simp [h1], h2⟩
      · intro hx h hh
        simp only [List.mem_cons] at hh
        rcases hh with rfl | hh
        · exact he
        · exact i3 hx h hh

theorem takeFlow_spec (name : List Char) : ∀ (l : List Flow), (∀ g ∈ l, g.name.length ≤ 1023) → l.Pairwise (fun f g => f.name ≠ g.name) →
    (takeFlow name l = none ∧ ∀ g ∈ l, g.name ≠ name) ∨ ∃ f, takeFlow name l = some (f, l.filter (fun g => g.name ≠ name)) ∧ f ∈ l ∧ f.name = name
  | [], _, _ => .inl ⟨rfl, by intro g hg; cases hg⟩
  | g :: l, hs, hn => by
    obtain ⟨hg, hn⟩ := List.pairwise_cons.1 hn
    unfold takeFlow
    by_cases he : g.name = name
    · rw [if_pos ((sameName_iff (hs g (by simp))).2 he)]
      exact .inr ⟨g, by rw [List.filter_cons_of_neg (by simp [he]), filter_all (fun h hh => by rw [← he]; exact (hg h hh).symm)], by simp, he⟩
    · rw [if_neg (fun hc => he ((sameName_iff (hs g (by simp))).1 hc))]
      rcases takeFlow_spec name l (fun g hg => hs g (by simp [hg])) hn with ⟨h1, h2⟩ | ⟨f, h1, h2, h3⟩
      · rw [h1]
        refine .inl ⟨rfl, ?_⟩
        intro h hh
        simp only [List.mem_cons] at hh
        rcases hh with rfl | hh
        · exact he
        · exact h2 h hh
      · rw [h1]
        exact .inr ⟨f, by rw [List.filter_cons_of_pos (by simp [he])], by simp [h2], h3⟩

/-- No two priorities are too far apart. -/
def Close (l : List Flow) : Prop := ∀ f ∈ l, ∀ g ∈ l, f.priority - g.priority ≤ 2147483647

/-- A priority that is not too far from 0. -/
def Mild (p : Int) : Prop := -1073741824 ≤ p ∧ p ≤ 1073741823

theorem sort_cases (fq : List Flow → List Flow) (l : List Flow) : sortFlows fq l = .ok (fq l) ∨ (¬ Close l ∧ sortFlows fq l = .ub) := by
  unfold sortFlows
  split
  · rename_i h
    refine .inr ⟨?_, rfl⟩
    rw [List.any_eq_true] at h
    obtain ⟨f, hf, h⟩ := h
    rw [List.any_eq_true] at h
    obtain ⟨g, hg, h⟩ := h
    unfold diffOverflows at h
    rw [decide_eq_true_eq] at h
    intro hc
    have h1 := hc f hf g hg; have h2 := hc g hg f hf
    omega
  · exact .inl rfl

/-- What is in the set after a definition: the new flow and all flows with other names. -/
def After (set set' : FlowSet) (f : Flow) : Prop := set'.ping = set.ping ∧ set'.flows.Perm (f :: set.flows.filter (fun g => g.name ≠ f.name))

theorem perm_names {l m : List Flow} (h : l.Perm m) (hm : m.Pairwise (fun f g => f.name ≠ g.name)) : l.Pairwise (fun f g => f.name ≠ g.name) :=
  h.symm.pairwise hm (fun h => Ne.symm h)

theorem after_ok {set : FlowSet} (hs : SetOK set) {f : Flow} (hf : FlowOK f) (hn : f.name.length ≤ 1023) {fq : List Flow → List Flow} (hfq : Sorts fq) {l : List Flow}
    (hl : l.Perm (f :: set.flows.filter (fun g => g.name ≠ f.name))) : SetOK ⟨fq l, set.ping⟩ ∧ After set ⟨fq l, set.ping⟩ f := by
  obtain ⟨p1, p2⟩ := hfq l
  have hp := p1.trans hl
  have hm : ∀ g ∈ fq l, g = f ∨ g ∈ set.flows := by
    intro g hg
    have := (hp.mem_iff).1 hg
    simp only [List.mem_cons, List.mem_filter] at this
    rcases this with h | h
    · exact .inl h
    · exact .inr h.1
  refine ⟨⟨?_, ?_, ?_, p2⟩, rfl, hp⟩
  · intro g hg
    rcases hm g hg with rfl | h
    · exact hf
    · exact hs.ok g h
  · intro g hg
    rcases hm g hg with rfl | h
    · exact hn
    · exact hs.short g h
  · apply perm_names hp
    rw [List.pairwise_cons]
    refine ⟨?_, hs.names.filter _⟩
    intro g hg
    simp only [List.mem_filter, ne_eq, decide_not, Bool.not_eq_eq_eq_not, Bool.not_true, decide_eq_false_iff_not] at hg
    exact fun h => hg.2 h.symm

/-- How a definition ends. -/
theorem define_cases {rq : (Nat → Nat) → List Nat → List Nat} (hq : QSort rq) {fq : List Flow → List Flow} (hfq : Sorts fq) {set : FlowSet} (hs : SetOK set) (a : Args) :
    (flowDefine rq fq set a = .ok (set, false)) ∨
    (∃ set' f name, flowDefine rq fq set a = .ok (set', true) ∧ a.name = some name ∧ build rq a name = .ok (some f) ∧ name.length ≤ 1023 ∧ f.name = name ∧ f.priority = a.priority ∧ f.userRef = a.userRef ∧
      f.udpencap = a.udpencap ∧ After set set' f ∧ SetOK set') ∨
    (flowDefine rq fq set a = .ub ∧ ¬ (ShortNets a.dsts ∧ ShortNets a.srcs ∧ Mild a.priority ∧ ∀ f ∈ set.flows, Mild f.priority)) := by
  unfold flowDefine
  cases hname : a.name with
  | none => exact .inl rfl
  | some name =>
    dsimp only
    by_cases hl : name.length ≥ 1024
    · rw [if_pos hl]; exact .inl rfl
    · rw [if_neg hl]
      rcases build_cases hq a name with ⟨r, e, hr⟩ | ⟨hn, e⟩
      · rw [e]
        simp only [Res.ok_bind, Res.pure_eq]
        cases r with
        | none => exact .inl rfl
        | some f =>
          obtain ⟨hf, f1, f2, f3, f4⟩ := hr f rfl
          rw [List.take_of_length_le (by omega)] at f1
          obtain ⟨p1, p2, p3⟩ := putFlow_spec f name set.flows hs.short hs.names
          dsimp only
          have hold : freeOld (putFlow f name set.flows).2 = .ok () := by
            cases ho : (putFlow f name set.flows).2 with
            | none => rfl
            | some g => exact flowFree_ok (hs.ok g (p2 g ho).1)
          rw [hold]
          simp only [Res.ok_bind]
          rcases sort_cases fq (putFlow f name set.flows).1 with h | ⟨hc, h⟩
          · rw [h]
            rw [← f1] at p1
            obtain ⟨k1, k2⟩ := after_ok hs hf (by rw [f1]; omega) hfq p1
            rw [f1] at p1 k1 k2
            refine .inr (.inl ⟨⟨fq (putFlow f name set.flows).1, set.ping⟩, f, name, rfl, rfl, e, by omega, f1, f2, f3, f4, k2, k1⟩)
          · rw [h]
            refine .inr (.inr ⟨rfl, ?_⟩)
            rintro ⟨-, -, h3, h4⟩
            apply hc
            intro x hx y hy
            have hmild : ∀ z ∈ (putFlow f name set.flows).1, Mild z.priority := by
              intro z hz
              have hz := (p1.mem_iff).1 hz
              simp only [List.mem_cons, List.mem_filter] at hz
              rcases hz with rfl | hz
              · rw [f2]; exact h3
              · exact h4 z hz.1
            have m1 := hmild x hx; have m2 := hmild y hy
            unfold Mild at m1 m2
            omega
      · rw [e]
        exact .inr (.inr ⟨rfl, fun h => hn ⟨h.1, h.2.1⟩⟩)

theorem delete_spec {set : FlowSet} (hs : SetOK set) (name : List Char) :
    (flowDelete set name = .ok (set, 0, none) ∧ ∀ f ∈ set.flows, f.name ≠ name) ∨
    ∃ f, f ∈ set.flows ∧ f.name = name ∧ flowDelete set name = .ok (⟨set.flows.filter (fun g => g.name ≠ name), set.ping⟩, f.userRef, some f.udpencap) ∧
      SetOK ⟨set.flows.filter (fun g => g.name ≠ name), set.ping⟩ := by
  unfold flowDelete
  rcases takeFlow_spec name set.flows hs.short hs.names with ⟨h1, h2⟩ | ⟨f, h1, h2, h3⟩
  · rw [h1]
    exact .inl ⟨rfl, h2⟩
  · rw [h1]
    dsimp only
    rw [flowFree_ok (hs.ok f h2)]
    refine .inr ⟨f, h2, h3, rfl, ?_, ?_, hs.names.filter _, hs.sorted.filter _⟩
    · intro g hg; exact hs.ok g (List.mem_filter.1 hg).1
    · intro g hg; exact hs.short g (List.mem_filter.1 hg).1

theorem create_ok : SetOK flowSetCreate := ⟨by simp [flowSetCreate], by simp [flowSetCreate], by simp [flowSetCreate], by simp [flowSetCreate]⟩

theorem step_ok {rq : (Nat → Nat) → List Nat → List Nat} (hq : QSort rq) {fq : List Flow → List Flow} (hfq : Sorts fq) {set set' : FlowSet} (hs : SetOK set) {o : Op}
    (h : step rq fq set o = .ok set') : SetOK set' := by
  cases o with
  | define a =>
    simp only [step] at h
    rcases define_cases hq hfq hs a with e | ⟨s, f, n, e, _, _, _, _, _, _, _, _, k⟩ | ⟨e, _⟩
    · rw [e] at h; cases h; exact hs
    · rw [e] at h; cases h; exact k
    · rw [e] at h; cases h
  | delete n =>
    simp only [step] at h
    rcases delete_spec hs n with ⟨e, _⟩ | ⟨f, _, _, e, k⟩
    · rw [e] at h; cases h; exact hs
    · rw [e] at h; cases h; exact k
  | ping v =>
    cases h
    exact ⟨hs.ok, hs.short, hs.names, hs.sorted⟩

theorem run_ok {rq : (Nat → Nat) → List Nat → List Nat} (hq : QSort rq) {fq : List Flow → List Flow} (hfq : Sorts fq) : ∀ (os : List Op) {set set' : FlowSet}, SetOK set →
    run rq fq set os = .ok set' → SetOK set'
  | [], st, st', hs, h => by cases h; exact hs
  | o :: os, st, st', hs, h => by
    simp only [run] at h
    cases he : step rq fq st o with
    | ok s =>
      rw [he] at h
      exact run_ok hq hfq os (step_ok hq hfq hs he) h
    | die => rw [he] at h; cases h
    | ub => rw [he] at h; cases h
    | hang => rw [he] at h; cases h

/-! ### Lookup -/

theorem lookup_spec {key : Key} {ping : Bool} {l3 : Nat} {data : Packet} : ∀ (l : List Flow) {u t v : Nat}, l.Pairwise (fun f g => g.priority ≤ f.priority) → lookupLoop key ping l3 data l u = .ok (t, v) →
    (t = 0 ∧ ∀ f ∈ l, f.userRef ≠ 0 → flowMatch key f ping l3 data = .ok .no) ∨
    (t ≠ 0 ∧ ∃ f ∈ l, f.userRef = t ∧ (flowMatch key f ping l3 data = .ok .ping ∨ (flowMatch key f ping l3 data = .ok .yes ∧ v = f.udpencap)) ∧
      ∀ g ∈ l, g.userRef ≠ 0 → f.priority < g.priority → flowMatch key g ping l3 data = .ok .no)
  | [], u, t, v, _, h => by
    simp only [lookupLoop, Res.ok.injEq, Prod.mk.injEq] at h
    exact .inl ⟨h.1.symm, by intro f hf; cases hf⟩
  | f :: l, u, t, v, hs, h => by
    obtain ⟨hs1, hs2⟩ := List.pairwise_cons.1 hs
    simp only [lookupLoop] at h
    cases hm : flowMatch key f ping l3 data with
    | ok w =>
      rw [hm] at h
      simp only [Res.ok_bind, Res.pure_eq] at h
      by_cases hc : w ≠ .no ∧ f.userRef ≠ 0
      · rw [if_pos hc] at h
        simp only [Res.ok.injEq, Prod.mk.injEq] at h
        obtain ⟨h1, h2⟩ := h
        refine .inr ⟨by rw [← h1]; exact hc.2, f, by simp, h1, ?_, ?_⟩
        · cases w with
          | no => exact absurd rfl hc.1
          | ping => exact .inl hm
          | yes => exact .inr ⟨hm, by rw [if_pos rfl] at h2; exact h2.symm⟩
        · intro g hg _ hlt
          simp only [List.mem_cons] at hg
          rcases hg with rfl | hg
          · omega
          · have := hs1 g hg; omega
      · rw [if_neg hc] at h
        have hno : f.userRef ≠ 0 → w = .no := by
          intro hu
          cases w with
          | no => rfl
          | ping => exact absurd ⟨by decide, hu⟩ hc
          | yes => exact absurd ⟨by decide, hu⟩ hc
        rcases lookup_spec l hs2 h with ⟨h1, h2⟩ | ⟨h1, g, hg, h2, h3, h4⟩
        · refine .inl ⟨h1, ?_⟩
          intro g hg hu
          simp only [List.mem_cons] at hg
          rcases hg with rfl | hg
          · rw [hm, hno hu]
          · exact h2 g hg hu
        · refine .inr ⟨h1, g, by simp [hg], h2, h3, ?_⟩
          intro x hx hu hlt
          simp only [List.mem_cons] at hx
          rcases hx with rfl | hx
          · rw [hm, hno hu]
          · exact h4 x hx hu hlt
    | die => rw [hm] at h; cases h
    | ub => rw [hm] at h; cases h
    | hang => rw [hm] at h; cases h

end Nfqlb.Flow
