import Verif.Proof.FlowSet

/-! What the fields of a flow are after it was accepted. -/

set_option autoImplicit false

namespace Nfqlb.Flow

open Nfqlb.Spec Nfqlb.Spec.FL Nfqlb.Spec.RS

structure Built (rq : (Nat → Nat) → List Nat → List Nat) (a : Args) (f : Flow) : Prop where
  protocols : (a.protocols = none ∧ f.protocols = none) ∨ ∃ l ps, a.protocols = some l ∧ parseProtocol l = some ps ∧ f.protocols = some ps
  dports : (a.dports = none ∧ f.dports = none) ∨ ∃ l ps, a.dports = some l ∧ definePorts rq l = .ok (ps, true) ∧ f.dports = some ps
  sports : (a.sports = none ∧ f.sports = none) ∨ ∃ l ps, a.sports = some l ∧ definePorts rq l = .ok (ps, true) ∧ f.sports = some ps
  dsts : (a.dsts = none ∧ f.dsts = none) ∨ ∃ l cs, a.dsts = some l ∧ parseCidrs l = .ok (some cs) ∧ f.dsts = some cs
  srcs : (a.srcs = none ∧ f.srcs = none) ∨ ∃ l cs, a.srcs = some l ∧ parseCidrs l = .ok (some cs) ∧ f.srcs = some cs
  mtch : (a.mtch = none ∧ f.mtch = none) ∨ ∃ l m, a.mtch = some l ∧ Match.matchAddAll [] l = .ok (some m) ∧ f.mtch = some m

theorem next_ok {r : Res (Flow × Bool)} {k : Flow → Res (Flow × Bool)} {g : Flow} (h : next r k = .ok (g, true)) : ∃ f, r = .ok (f, true) ∧ k f = .ok (g, true) := by
  unfold next at h
  cases hr : r with
  | ok x =>
    obtain ⟨f, ok⟩ := x
    rw [hr] at h
    simp only [Res.ok_bind, Res.pure_eq] at h
    cases ok with
    | true => rw [if_pos rfl] at h; exact ⟨f, rfl, h⟩
    | false => rw [if_neg (by decide)] at h; cases h
  | die => rw [hr] at h; cases h
  | ub => rw [hr] at h; cases h
  | hang => rw [hr] at h; cases h

theorem stProtocols_ok {a : Args} {f g : Flow} (h : stProtocols a f = .ok (g, true)) :
    (a.protocols = none ∧ g = f) ∨ ∃ l ps, a.protocols = some l ∧ parseProtocol l = some ps ∧ g = { f with protocols := some ps } := by
  unfold stProtocols at h
  cases ha : a.protocols with
  | none => rw [ha] at h; cases h; exact .inl ⟨rfl, rfl⟩
  | some l =>
    rw [ha] at h
    dsimp only at h
    cases hp : parseProtocol l with
    | none => rw [hp] at h; cases h
    | some ps => rw [hp] at h; cases h; exact .inr ⟨l, ps, rfl, hp, rfl⟩

theorem stDports_ok {rq : (Nat → Nat) → List Nat → List Nat} {a : Args} {f g : Flow} (h : stDports rq a f = .ok (g, true)) :
    (a.dports = none ∧ g = f) ∨ ∃ l ps, a.dports = some l ∧ definePorts rq l = .ok (ps, true) ∧ g = { f with dports := some ps } := by
  unfold stDports at h
  cases ha : a.dports with
  | none => rw [ha] at h; cases h; exact .inl ⟨rfl, rfl⟩
  | some l =>
    rw [ha] at h
    dsimp only at h
    cases hp : definePorts rq l with
    | ok x => obtain ⟨ps, ok⟩ := x; rw [hp] at h; cases h; exact .inr ⟨l, ps, rfl, hp, rfl⟩
    | die => rw [hp] at h; cases h
    | ub => rw [hp] at h; cases h
    | hang => rw [hp] at h; cases h

theorem stSports_ok {rq : (Nat → Nat) → List Nat → List Nat} {a : Args} {f g : Flow} (h : stSports rq a f = .ok (g, true)) :
    (a.sports = none ∧ g = f) ∨ ∃ l ps, a.sports = some l ∧ definePorts rq l = .ok (ps, true) ∧ g = { f with sports := some ps } := by
  unfold stSports at h
  cases ha : a.sports with
  | none => rw [ha] at h; cases h; exact .inl ⟨rfl, rfl⟩
  | some l =>
    rw [ha] at h
    dsimp only at h
    cases hp : definePorts rq l with
    | ok x => obtain ⟨ps, ok⟩ := x; rw [hp] at h; cases h; exact .inr ⟨l, ps, rfl, hp, rfl⟩
    | die => rw [hp] at h; cases h
    | ub => rw [hp] at h; cases h
    | hang => rw [hp] at h; cases h

theorem stDsts_ok {a : Args} {f g : Flow} (h : stDsts a f = .ok (g, true)) :
    (a.dsts = none ∧ g = f) ∨ ∃ l cs, a.dsts = some l ∧ parseCidrs l = .ok (some cs) ∧ g = { f with dsts := some cs } := by
  unfold stDsts at h
  cases ha : a.dsts with
  | none => rw [ha] at h; cases h; exact .inl ⟨rfl, rfl⟩
  | some l =>
    rw [ha] at h
    dsimp only at h
    cases hp : parseCidrs l with
    | ok x =>
      rw [hp] at h
      cases x with
      | none => cases h
      | some cs => cases h; exact .inr ⟨l, cs, rfl, hp, rfl⟩
    | die => rw [hp] at h; cases h
    | ub => rw [hp] at h; cases h
    | hang => rw [hp] at h; cases h

theorem stSrcs_ok {a : Args} {f g : Flow} (h : stSrcs a f = .ok (g, true)) :
    (a.srcs = none ∧ g = f) ∨ ∃ l cs, a.srcs = some l ∧ parseCidrs l = .ok (some cs) ∧ g = { f with srcs := some cs } := by
  unfold stSrcs at h
  cases ha : a.srcs with
  | none => rw [ha] at h; cases h; exact .inl ⟨rfl, rfl⟩
  | some l =>
    rw [ha] at h
    dsimp only at h
    cases hp : parseCidrs l with
    | ok x =>
      rw [hp] at h
      cases x with
      | none => cases h
      | some cs => cases h; exact .inr ⟨l, cs, rfl, hp, rfl⟩
    | die => rw [hp] at h; cases h
    | ub => rw [hp] at h; cases h
    | hang => rw [hp] at h; cases h

theorem stMatch_ok {a : Args} {f g : Flow} (h : stMatch a f = .ok (g, true)) :
    (a.mtch = none ∧ g = f) ∨ ∃ l m, a.mtch = some l ∧ Match.matchAddAll [] l = .ok (some m) ∧ g = { f with mtch := some m } := by
  unfold stMatch at h
  cases ha : a.mtch with
  | none => rw [ha] at h; cases h; exact .inl ⟨rfl, rfl⟩
  | some l =>
    rw [ha] at h
    dsimp only at h
    cases hp : Match.matchAddAll [] l with
    | ok x =>
      rw [hp] at h
      cases x with
      | none => cases h
      | some cs => cases h; exact .inr ⟨l, cs, rfl, hp, rfl⟩
    | die => rw [hp] at h; cases h
    | ub => rw [hp] at h; cases h
    | hang => rw [hp] at h; cases h

theorem build_fields {rq : (Nat → Nat) → List Nat → List Nat} {a : Args} {name : List Char} {f : Flow} (h : build rq a name = .ok (some f)) : Built rq a f := by
  unfold build at h
  dsimp only at h
  cases hn : next (next (next (next (next (stProtocols a ⟨name.take 1024, a.priority, a.userRef, none, none, none, none, none, none, a.udpencap⟩) (stDports rq a)) (stSports rq a)) (stDsts a)) (stSrcs a)) (stMatch a) with
  | ok x =>
    obtain ⟨g, ok⟩ := x
    rw [hn] at h
    simp only [Res.ok_bind, Res.pure_eq] at h
    cases ok with
    | false =>
      rw [if_neg (by decide)] at h
      cases hf : flowFree g with
      | ok u => rw [hf] at h; cases h
      | die => rw [hf] at h; cases h
      | ub => rw [hf] at h; cases h
      | hang => rw [hf] at h; cases h
    | true =>
      rw [if_pos rfl] at h
      cases h
      obtain ⟨f5, hn, e6⟩ := next_ok hn
      obtain ⟨f4, hn, e5⟩ := next_ok hn
      obtain ⟨f3, hn, e4⟩ := next_ok hn
      obtain ⟨f2, hn, e3⟩ := next_ok hn
      obtain ⟨f1, e1, e2⟩ := next_ok hn
      have k1 := stProtocols_ok e1; have k2 := stDports_ok e2; have k3 := stSports_ok e3
      have k4 := stDsts_ok e4; have k5 := stSrcs_ok e5; have k6 := stMatch_ok e6
      clear hn e1 e2 e3 e4 e5 e6
      constructor
      · rcases k1 with ⟨h1, rfl⟩ | ⟨l1, p1, h1, j1, rfl⟩ <;> rcases k2 with ⟨_, rfl⟩ | ⟨_, _, _, _, rfl⟩ <;> rcases k3 with ⟨_, rfl⟩ | ⟨_, _, _, _, rfl⟩ <;> rcases k4 with ⟨_, rfl⟩ | ⟨_, _, _, _, rfl⟩ <;>
          rcases k5 with ⟨_, rfl⟩ | ⟨_, _, _, _, rfl⟩ <;> rcases k6 with ⟨_, rfl⟩ | ⟨_, _, _, _, rfl⟩ <;> first | exact .inl ⟨h1, rfl⟩ | exact .inr ⟨_, _, h1, j1, rfl⟩
      · rcases k2 with ⟨h1, rfl⟩ | ⟨l1, p1, h1, j1, rfl⟩ <;> rcases k1 with ⟨_, rfl⟩ | ⟨_, _, _, _, rfl⟩ <;> rcases k3 with ⟨_, rfl⟩ | ⟨_, _, _, _, rfl⟩ <;> rcases k4 with ⟨_, rfl⟩ | ⟨_, _, _, _, rfl⟩ <;>
          rcases k5 with ⟨_, rfl⟩ | ⟨_, _, _, _, rfl⟩ <;> rcases k6 with ⟨_, rfl⟩ | ⟨_, _, _, _, rfl⟩ <;> first | exact .inl ⟨h1, rfl⟩ | exact .inr ⟨_, _, h1, j1, rfl⟩
      · rcases k3 with ⟨h1, rfl⟩ | ⟨l1, p1, h1, j1, rfl⟩ <;> rcases k2 with ⟨_, rfl⟩ | ⟨_, _, _, _, rfl⟩ <;> rcases k1 with ⟨_, rfl⟩ | ⟨_, _, _, _, rfl⟩ <;> rcases k4 with ⟨_, rfl⟩ | ⟨_, _, _, _, rfl⟩ <;>
          rcases k5 with ⟨_, rfl⟩ | ⟨_, _, _, _, rfl⟩ <;> rcases k6 with ⟨_, rfl⟩ | ⟨_, _, _, _, rfl⟩ <;> first | exact .inl ⟨h1, rfl⟩ | exact .inr ⟨_, _, h1, j1, rfl⟩
      · rcases k4 with ⟨h1, rfl⟩ | ⟨l1, p1, h1, j1, rfl⟩ <;> rcases k2 with ⟨_, rfl⟩ | ⟨_, _, _, _, rfl⟩ <;> rcases k3 with ⟨_, rfl⟩ | ⟨_, _, _, _, rfl⟩ <;> rcases k1 with ⟨_, rfl⟩ | ⟨_, _, _, _, rfl⟩ <;>
          rcases k5 with ⟨_, rfl⟩ | ⟨_, _, _, _, rfl⟩ <;> rcases k6 with ⟨_, rfl⟩ | ⟨_, _, _, _, rfl⟩ <;> first | exact .inl ⟨h1, rfl⟩ | exact .inr ⟨_, _, h1, j1, rfl⟩
      · rcases k5 with ⟨h1, rfl⟩ | ⟨l1, p1, h1, j1, rfl⟩ <;> rcases k2 with ⟨_, rfl⟩ | ⟨_, _, _, _, rfl⟩ <;> rcases k3 with ⟨_, rfl⟩ | ⟨_, _, _, _, rfl⟩ <;> rcases k4 with ⟨_, rfl⟩ | ⟨_, _, _, _, rfl⟩ <;>
          rcases k1 with ⟨_, rfl⟩ | ⟨_, _, _, _, rfl⟩ <;> rcases k6 with ⟨_, rfl⟩ | ⟨_, _, _, _, rfl⟩ <;> first | exact .inl ⟨h1, rfl⟩ | exact .inr ⟨_, _, h1, j1, rfl⟩
      · rcases k6 with ⟨h1, rfl⟩ | ⟨l1, p1, h1, j1, rfl⟩ <;> rcases k2 with ⟨_, rfl⟩ | ⟨_, _, _, _, rfl⟩ <;> rcases k3 with ⟨_, rfl⟩ | ⟨_, _, _, _, rfl⟩ <;> rcases k4 with ⟨_, rfl⟩ | ⟨_, _, _, _, rfl⟩ <;>
          rcases k5 with ⟨_, rfl⟩ | ⟨_, _, _, _, rfl⟩ <;> rcases k1 with ⟨_, rfl⟩ | ⟨_, _, _, _, rfl⟩ <;> first | exact .inl ⟨h1, rfl⟩ | exact .inr ⟨_, _, h1, j1, rfl⟩
  | die => rw [hn] at h; cases h
  | ub => rw [hn] at h; cases h
  | hang => rw [hn] at h; cases h

end Nfqlb.Flow
