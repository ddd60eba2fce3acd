import Verif.Proof.FlowList

/-! Printing comes to an end, whatever the flows are. -/

set_option autoImplicit false

namespace Nfqlb.Flow

open Nfqlb.Spec Nfqlb.Spec.FL Nfqlb.Spec.RS Nfqlb.RS Nfqlb.RS.Tree Nfqlb.Spec.FP

/-- A flow that can be printed. -/
structure Draw (f : Flow) : Prop where
  dsts : ∀ cs, f.dsts = some cs → ∀ c ∈ cs, CidrOK c
  srcs : ∀ cs, f.srcs = some cs → ∀ c ∈ cs, CidrOK c
  dports : ∀ p, f.dports = some p → PortsFit p
  sports : ∀ p, f.sports = some p → PortsFit p
  mtch : ∀ m, f.mtch = some m → ∃ l, Match.matchAddAll [] l = .ok (some m)

theorem built_draw {rq : (Nat → Nat) → List Nat → List Nat} (hq : QSort rq) {f : Flow} {a : Args} (h : Built rq a f) (h1 : ∀ s, a.dports = some s → s.length < 1023) (h2 : ∀ s, a.sports = some s → s.length < 1023) : Draw f := by
  refine ⟨?_, ?_, ?_, ?_, ?_⟩
  · intro cs hp
    rcases h.dsts with ⟨_, e⟩ | ⟨l, qs, e1, e2, e3⟩
    · rw [hp] at e; cases e
    · rw [hp] at e3; cases e3
      exact (parseCidrs_ok e2).1
  · intro cs hp
    rcases h.srcs with ⟨_, e⟩ | ⟨l, qs, e1, e2, e3⟩
    · rw [hp] at e; cases e
    · rw [hp] at e3; cases e3
      exact (parseCidrs_ok e2).1
  · intro p hp
    rcases h.dports with ⟨_, e⟩ | ⟨l, qs, e1, e2, e3⟩
    · rw [hp] at e; cases e
    · rw [hp] at e3; cases e3
      obtain ⟨T, k1, k2, k3, _⟩ := ports_accepted hq e2
      have := h1 l e1
      exact ⟨T, k1, k2, by omega⟩
  · intro p hp
    rcases h.sports with ⟨_, e⟩ | ⟨l, qs, e1, e2, e3⟩
    · rw [hp] at e; cases e
    · rw [hp] at e3; cases e3
      obtain ⟨T, k1, k2, k3, _⟩ := ports_accepted hq e2
      have := h2 l e1
      exact ⟨T, k1, k2, by omega⟩
  · intro m hm
    rcases h.mtch with ⟨_, e⟩ | ⟨l, m', e1, e2, e3⟩
    · rw [hm] at e; cases e
    · rw [hm] at e3; cases e3
      exact ⟨l, e2⟩

theorem printList_total {α : Type} (name : String) (x : Option α) (f : α → Res (List Char)) (h : ∀ a, x = some a → ∃ t, f a = .ok t) : ∃ t, printList name x f = .ok t := by
  cases x with
  | none => exact ⟨_, rfl⟩
  | some a =>
    obtain ⟨t, e⟩ := h a rfl
    have e2 : printList name (some a) f = (f a >>= fun s => Res.ok (",\n  \"".toList ++ name.toList ++ "\": [\n".toList ++ s ++ "\n  ]".toList)) := rfl
    rw [e2, e]
    exact ⟨_, rfl⟩

theorem printMatch_total (m : Match.Match) : ∃ t, printMatch m = .ok t := by
  obtain ⟨rc, out, e, _⟩ := Match.string_spec m 1024 (by decide)
  have e2 : printMatch m = (Match.matchString m 1024 >>= fun x => if x.1 < 0 then Res.ok [] else
      match CText.strtok1 [','] x.2 with
      | none => Res.ok []
      | some (t, rest) => Res.ok (printTokens (t :: CText.tokens [',', ' '] rest))) := rfl
  rw [e2, e, Res.ok_bind]
  dsimp only
  split
  · exact ⟨_, rfl⟩
  · split <;> exact ⟨_, rfl⟩

theorem printUser_total (f : Flow) (ref : Option (Nat → Res (List Char))) (h : ∀ r, ref = some r → ∃ t, r f.userRef = .ok t) : ∃ t, printUser f ref = .ok t := by
  cases ref with
  | none => exact ⟨_, rfl⟩
  | some r =>
    obtain ⟨t, e⟩ := h r rfl
    have e2 : printUser f (some r) = (r f.userRef >>= fun t => Res.ok (",\n  \"user_ref\": \"".toList ++ t ++ ['"'])) := rfl
    rw [e2, e]
    exact ⟨_, rfl⟩

theorem printFlow_total {f : Flow} (h : Draw f) (cnt : Nat) (ref : Option (Nat → Res (List Char))) (hr : ∀ r, ref = some r → ∃ t, r f.userRef = .ok t) : ∃ t, printFlow f cnt ref = .ok t := by
  obtain ⟨t1, e1⟩ := printList_total "dests" f.dsts printCidrs (fun cs hcs => by
    obtain ⟨ns, _, k, _⟩ := printCidrs_ok cs (h.dsts cs hcs)
    exact ⟨_, k⟩)
  obtain ⟨t2, e2⟩ := printList_total "dports" f.dports printPorts (fun p hp => by
    obtain ⟨l, k, _⟩ := printPorts_ok (h.dports p hp)
    exact ⟨_, k⟩)
  obtain ⟨t3, e3⟩ := printList_total "srcs" f.srcs printCidrs (fun cs hcs => by
    obtain ⟨ns, _, k, _⟩ := printCidrs_ok cs (h.srcs cs hcs)
    exact ⟨_, k⟩)
  obtain ⟨t4, e4⟩ := printList_total "sports" f.sports printPorts (fun p hp => by
    obtain ⟨l, k, _⟩ := printPorts_ok (h.sports p hp)
    exact ⟨_, k⟩)
  obtain ⟨t5, e5⟩ := printList_total "match" f.mtch printMatch (fun m _ => printMatch_total m)
  obtain ⟨t6, e6⟩ := printUser_total f ref hr
  have e : printFlow f cnt ref = (printList "dests" f.dsts printCidrs >>= fun dests => printList "dports" f.dports printPorts >>= fun dports => printList "srcs" f.srcs printCidrs >>= fun srcs =>
      printList "sports" f.sports printPorts >>= fun sports => printList "match" f.mtch printMatch >>= fun mtch => printUser f ref >>= fun user =>
      Res.ok ("{\n  \"name\": \"".toList ++ f.name ++ "\",\n  \"priority\": ".toList ++ CText.dec (asUnsigned f.priority) ++ printProtocols f ++
        dests ++ dports ++ srcs ++ sports ++ mtch ++ (if f.udpencap > 0 then ",\n  \"udpencap\": ".toList ++ CText.dec f.udpencap else []) ++
        ",\n  \"matches_count\": ".toList ++ CText.dec cnt ++ user ++ "\n}".toList)) := rfl
  rw [e, e1, e2, e3, e4, e5, e6]
  exact ⟨_, rfl⟩

theorem printFlows_total (cnt : Flow → Nat) (ref : Option (Nat → Res (List Char))) : ∀ (l : List Flow), (∀ f ∈ l, Draw f) → (∀ f ∈ l, ∀ r, ref = some r → ∃ t, r f.userRef = .ok t) → ∃ t, printFlows cnt ref l = .ok t
  | [], _, _ => ⟨_, rfl⟩
  | f :: l, h, hr => by
    obtain ⟨s, e1⟩ := printFlow_total (h f (by simp)) (cnt f) ref (hr f (by simp))
    obtain ⟨t, e2⟩ := printFlows_total cnt ref l (fun g hg => h g (by simp [hg])) (fun g hg => hr g (by simp [hg]))
    exact ⟨_, printFlows_cons cnt ref f l e1 e2⟩

theorem print_total (set : FlowSet) (name : Option (List Char)) (cnt : Flow → Nat) (ref : Option (Nat → Res (List Char))) (h : ∀ f ∈ set.flows, Draw f)
    (hr : ∀ f ∈ set.flows, ∀ r, ref = some r → ∃ t, r f.userRef = .ok t) : ∃ t, flowSetPrint set name cnt ref = .ok t := by
  cases name with
  | none =>
    obtain ⟨t, e⟩ := printFlows_total cnt ref set.flows h hr
    have e2 : flowSetPrint set none cnt ref = (printFlows cnt ref set.flows >>= fun s => Res.ok (['['] ++ s ++ "]\n".toList)) := rfl
    rw [e2, e]
    exact ⟨_, rfl⟩
  | some n =>
    have e : flowSetPrint set (some n) cnt ref = (match set.flows.find? (fun f => decide (n = f.name)) with | none => .ok [] | some f => printFlow f (cnt f) ref) := rfl
    rw [e]
    cases hf : set.flows.find? (fun f => decide (n = f.name)) with
    | none => exact ⟨_, rfl⟩
    | some f =>
      have hm := List.mem_of_find?_eq_some hf
      exact printFlow_total (h f hm) (cnt f) ref (hr f hm)

end Nfqlb.Flow
