import Verif.Proof.FlowBuild

/-! A definition as documented gives a flow with these criteria. -/

set_option autoImplicit false

namespace Nfqlb.Flow

open Nfqlb.Spec Nfqlb.Spec.FL Nfqlb.Spec.RS Nfqlb.RS

/-- A flow has the criteria of a definition. -/
structure Implements (f : Flow) (d : Def) : Prop where
  name : f.name = d.name
  priority : f.priority = d.priority
  target : f.userRef = d.target
  udpencap : f.udpencap = d.udpencap
  dsts : ∀ x : List UInt8, x.length = 16 → (addrPasses f.dsts x = true ↔ ∀ l, d.dsts = some l → ∃ n ∈ l, n.Contains x)
  srcs : ∀ x : List UInt8, x.length = 16 → (addrPasses f.srcs x = true ↔ ∀ l, d.srcs = some l → ∃ n ∈ l, n.Contains x)
  protocols : ∀ k : Key, protoPasses f.protocols k = true ↔ ∀ l, d.protocols = some l → ∃ s ∈ l, ∃ p, Names s p ∧ k.proto = (p.num, 0)
  dports : ∀ x : Raw16, ∃ b, portPasses f.dports x = .ok b ∧ (b = true ↔ ∀ l, d.dports = some l → ∃ r ∈ l, r.1 ≤ port x ∧ port x ≤ r.2)
  sports : ∀ x : Raw16, ∃ b, portPasses f.sports x = .ok b ∧ (b = true ↔ ∀ l, d.sports = some l → ∃ r ∈ l, r.1 ≤ port x ∧ port x ≤ r.2)
  mtch : (d.mtch = none ∧ f.mtch = none) ∨ ∃ l m, d.mtch = some l ∧ f.mtch = some m ∧ Match.matchAddAll [] (l.map BM.Expr.text) = .ok (some m)

theorem ntohs_port (x : Raw16) : ntohs x = port x := by unfold ntohs port; omega

theorem defPorts {rq : (Nat → Nat) → List Nat → List Nat} (hq : QSort rq) (l : Option (List (Nat × Nat))) (hw : ∀ m, l = some m → PortsWF m) :
    ∃ v : Option Ports, (∀ s, l.map portsText = some s → ∃ p, v = some p ∧ definePorts rq s = .ok (p, true)) ∧ (l = none → v = none) ∧
      ∀ x : Raw16, ∃ b, portPasses v x = .ok b ∧ (b = true ↔ ∀ m, l = some m → ∃ r ∈ m, r.1 ≤ port x ∧ port x ≤ r.2) := by
  cases l with
  | none => exact ⟨none, by simp, by simp, fun x => ⟨true, rfl, by simp⟩⟩
  | some m =>
    obtain ⟨p, h1, h2⟩ := ports_text hq m (hw m rfl)
    refine ⟨some p, ?_, by simp, ?_⟩
    · intro s hs
      simp only [Option.map_some, Option.some.injEq] at hs
      subst hs
      exact ⟨p, rfl, h1⟩
    · intro x
      refine ⟨_, h2 _, ?_⟩
      rw [decide_eq_true_eq, ntohs_port]
      simp

theorem defNets (l : Option (List Net)) (hw : ∀ m, l = some m → NetsWF m) :
    ∃ v : Option (List Cidr), (∀ s, l.map (·.map Net.text) = some s → ∃ c, v = some c ∧ parseCidrs s = .ok (some c)) ∧ (l = none → v = none) ∧
      ∀ x : List UInt8, x.length = 16 → (addrPasses v x = true ↔ ∀ m, l = some m → ∃ n ∈ m, n.Contains x) := by
  cases l with
  | none => exact ⟨none, by simp, by simp, by simp [addrPasses]⟩
  | some m =>
    obtain ⟨c, h1, h2⟩ := parseCidrs_nets m (hw m rfl)
    refine ⟨some c, ?_, by simp, ?_⟩
    · intro s hs
      simp only [Option.map_some, Option.some.injEq] at hs
      subst hs
      exact ⟨c, rfl, h1⟩
    · intro x hx
      unfold addrPasses
      rw [h2 x hx]
      simp

theorem defMatch (l : Option (List BM.Expr)) (hw : ∀ m, l = some m → ∀ e ∈ m, e.WF ∧ e.Plain ∧ e.InHeader ∧ e.text.length ≤ 64) :
    ∃ v : Option Match.Match, (∀ s, l.map (·.map BM.Expr.text) = some s → ∃ c, v = some c ∧ Match.matchAddAll [] s = .ok (some c)) ∧ (l = none → v = none) ∧
      ((l = none ∧ v = none) ∨ ∃ es m, l = some es ∧ v = some m ∧ Match.matchAddAll [] (es.map BM.Expr.text) = .ok (some m)) := by
  cases l with
  | none => exact ⟨none, by simp, by simp, .inl ⟨rfl, rfl⟩⟩
  | some es =>
    have h := Match.addAll_exprs es [] (fun e he => ⟨(hw es rfl e he).1, (hw es rfl e he).2.2.2, Match.plain_in (hw es rfl e he).2.1 (hw es rfl e he).2.2.1⟩)
    refine ⟨some ([] ++ es.map Match.itemOf), ?_, by simp, .inr ⟨es, _, rfl, rfl, h⟩⟩
    intro s hs
    simp only [Option.map_some, Option.some.injEq] at hs
    subst hs
    exact ⟨_, rfl, h⟩

theorem build_def {rq : (Nat → Nat) → List Nat → List Nat} (hq : QSort rq) (d : Def) (hd : d.WF) : ∃ f, build rq d.args d.name = .ok (some f) ∧ Implements f d := by
  obtain ⟨ps, p1, p2, p3⟩ : ∃ v : Option (List Nat), (∀ l, d.protocols = some l → ∃ c, v = some c ∧ parseProtocol l = some c) ∧ (d.protocols = none → v = none) ∧
      ∀ k : Key, protoPasses v k = true ↔ ∀ l, d.protocols = some l → ∃ s ∈ l, ∃ p, Names s p ∧ k.proto = (p.num, 0) := by
    cases hp : d.protocols with
    | none => exact ⟨none, by simp, by simp, by simp [protoPasses]⟩
    | some l =>
      obtain ⟨c, h1, h2⟩ := parseProtocol_names l (hd.protocols l hp)
      refine ⟨some c, ?_, by simp, ?_⟩
      · rintro m ⟨⟩; exact ⟨c, rfl, h1⟩
      · intro k; rw [h2 k]; simp
  obtain ⟨dp, d1, d2, d3⟩ := defPorts hq d.dports hd.dports
  obtain ⟨sp, s1, s2, s3⟩ := defPorts hq d.sports hd.sports
  obtain ⟨dn, n1, n2, n3⟩ := defNets d.dsts hd.dsts
  obtain ⟨sn, m1, m2, m3⟩ := defNets d.srcs hd.srcs
  obtain ⟨mm, q1, q2, q3⟩ := defMatch d.mtch hd.mtch
  have e1 : ∀ f : Flow, f.protocols = none → stProtocols d.args f = .ok ({ f with protocols := ps }, true) := by
    rintro ⟨⟩ ⟨⟩
    unfold stProtocols Def.args
    dsimp only
    split
    · rename_i h; rw [p2 h]
    · rename_i l h
      obtain ⟨c, rfl, h2⟩ := p1 l h
      rw [h2]
  have e2 : ∀ f : Flow, f.dports = none → stDports rq d.args f = .ok ({ f with dports := dp }, true) := by
    rintro ⟨⟩ ⟨⟩
    unfold stDports Def.args
    dsimp only
    split
    · rename_i h; rw [d2 (Option.map_eq_none_iff.1 h)]
    · rename_i l h
      obtain ⟨c, rfl, h2⟩ := d1 l h
      rw [h2]; rfl
  have e3 : ∀ f : Flow, f.sports = none → stSports rq d.args f = .ok ({ f with sports := sp }, true) := by
    rintro ⟨⟩ ⟨⟩
    unfold stSports Def.args
    dsimp only
    split
    · rename_i h; rw [s2 (Option.map_eq_none_iff.1 h)]
    · rename_i l h
      obtain ⟨c, rfl, h2⟩ := s1 l h
      rw [h2]; rfl
  have e4 : ∀ f : Flow, f.dsts = none → stDsts d.args f = .ok ({ f with dsts := dn }, true) := by
    rintro ⟨⟩ ⟨⟩
    unfold stDsts Def.args
    dsimp only
    split
    · rename_i h; rw [n2 (Option.map_eq_none_iff.1 h)]
    · rename_i l h
      obtain ⟨c, rfl, h2⟩ := n1 l h
      rw [h2]; rfl
  have e5 : ∀ f : Flow, f.srcs = none → stSrcs d.args f = .ok ({ f with srcs := sn }, true) := by
    rintro ⟨⟩ ⟨⟩
    unfold stSrcs Def.args
    dsimp only
    split
    · rename_i h; rw [m2 (Option.map_eq_none_iff.1 h)]
    · rename_i l h
      obtain ⟨c, rfl, h2⟩ := m1 l h
      rw [h2]; rfl
  have e6 : ∀ f : Flow, f.mtch = none → stMatch d.args f = .ok ({ f with mtch := mm }, true) := by
    rintro ⟨⟩ ⟨⟩
    unfold stMatch Def.args
    dsimp only
    split
    · rename_i h; rw [q2 (Option.map_eq_none_iff.1 h)]
    · rename_i l h
      obtain ⟨c, rfl, h2⟩ := q1 l h
      rw [h2]; rfl
  refine ⟨⟨d.name.take 1024, d.priority, d.target, ps, dp, sp, dn, sn, mm, d.udpencap⟩, ?_, ?_⟩
  · unfold build
    dsimp only
    rw [e1 _ rfl, show Flow.next (.ok (_, true)) (stDports rq d.args) = stDports rq d.args _ from rfl, e2 _ rfl, show Flow.next (.ok (_, true)) (stSports rq d.args) = stSports rq d.args _ from rfl, e3 _ rfl,
      show Flow.next (.ok (_, true)) (stDsts d.args) = stDsts d.args _ from rfl, e4 _ rfl, show Flow.next (.ok (_, true)) (stSrcs d.args) = stSrcs d.args _ from rfl, e5 _ rfl,
      show Flow.next (.ok (_, true)) (stMatch d.args) = stMatch d.args _ from rfl, e6 _ rfl]
    rfl
  · exact ⟨List.take_of_length_le (by have := hd.name; omega), rfl, rfl, rfl, n3, m3, p3, d3, s3, q3⟩

end Nfqlb.Flow
