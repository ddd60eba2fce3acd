import Verif.Proof.FlowJson

/-! Listing sets of flows. -/

set_option autoImplicit false

namespace Nfqlb.Flow

open Nfqlb.Spec Nfqlb.Spec.FL Nfqlb.Spec.RS Nfqlb.RS Nfqlb.RS.Tree Nfqlb.Spec.J Nfqlb.Spec.FP

/-! ### All flows were defined -/

/-- The flow was defined with these arguments. -/
structure From (rq : (Nat → Nat) → List Nat → List Nat) (f : Flow) (a : Args) : Prop where
  name : a.name = some f.name
  built : Built rq a f
  priority : f.priority = a.priority
  userRef : f.userRef = a.userRef
  udpencap : f.udpencap = a.udpencap

theorem step_from {rq : (Nat → Nat) → List Nat → List Nat} (hq : QSort rq) {fq : List Flow → List Flow} (hfq : Sorts fq) {set set' : FlowSet} (hs : SetOK set) {o : Op}
    (h : step rq fq set o = .ok set') : ∀ f ∈ set'.flows, f ∈ set.flows ∨ ∃ a, o = .define a ∧ From rq f a := by
  cases o with
  | define a =>
    simp only [step] at h
    rcases define_cases hq hfq hs a with e | ⟨s, f, n, e, h1, h2, _, h3, h4, h5, h6, h7, _⟩ | ⟨e, _⟩
    · rw [e] at h; cases h; exact fun f hf => .inl hf
    · rw [e] at h; cases h
      intro g hg
      have := h7.2.mem_iff.1 hg
      rw [List.mem_cons, List.mem_filter] at this
      rcases this with rfl | hg
      · exact .inr ⟨a, rfl, by rw [h1, h3], build_fields h2, h4, h5, h6⟩
      · exact .inl hg.1
    · rw [e] at h; cases h
  | delete n =>
    simp only [step] at h
    rcases delete_spec hs n with ⟨e, _⟩ | ⟨f, _, _, e, k⟩
    · rw [e] at h; cases h; exact fun f hf => .inl hf
    · rw [e] at h; cases h
      intro g hg
      exact .inl (List.mem_filter.1 hg).1
  | ping v =>
    cases h
    exact fun f hf => .inl hf

theorem run_from {rq : (Nat → Nat) → List Nat → List Nat} (hq : QSort rq) {fq : List Flow → List Flow} (hfq : Sorts fq) : ∀ (os : List Op) {set set' : FlowSet}, SetOK set →
    run rq fq set os = .ok set' → ∀ f ∈ set'.flows, f ∈ set.flows ∨ ∃ a, Op.define a ∈ os ∧ From rq f a
  | [], st, st', hs, h => by cases h; exact fun f hf => .inl hf
  | o :: os, st, st', hs, h => by
    simp only [run] at h
    cases he : step rq fq st o with
    | ok s =>
      rw [he] at h
      intro f hf
      rcases run_from hq hfq os (step_ok hq hfq hs he) h f hf with hf | ⟨a, h1, h2⟩
      · rcases step_from hq hfq hs he f hf with hf | ⟨a, h1, h2⟩
        · exact .inl hf
        · exact .inr ⟨a, by simp [h1], h2⟩
      · exact .inr ⟨a, by simp [h1], h2⟩
    | die => rw [he] at h; cases h
    | ub => rw [he] at h; cases h
    | hang => rw [he] at h; cases h

theorem from_printable {rq : (Nat → Nat) → List Nat → List Nat} (hq : QSort rq) {f : Flow} {a : Args} (h : From rq f a) (hc : CanList a) : Printable f := by
  refine ⟨hc.name _ h.name, by rw [h.priority]; exact hc.priority, ?_, ?_, ?_, ?_, ?_, ?_⟩
  · intro ps hp
    rcases h.built.protocols with ⟨_, e⟩ | ⟨l, qs, e1, e2, e3⟩
    · rw [hp] at e; cases e
    · rw [hp] at e3; cases e3
      exact parseProtocol_ok e2 (fun hl => hc.protocols (by rw [e1, hl]))
  · intro cs hp
    rcases h.built.dsts with ⟨_, e⟩ | ⟨l, qs, e1, e2, e3⟩
    · rw [hp] at e; cases e
    · rw [hp] at e3; cases e3
      exact (parseCidrs_ok e2).1
  · intro cs hp
    rcases h.built.srcs with ⟨_, e⟩ | ⟨l, qs, e1, e2, e3⟩
    · rw [hp] at e; cases e
    · rw [hp] at e3; cases e3
      exact (parseCidrs_ok e2).1
  · intro p hp
    rcases h.built.dports with ⟨_, e⟩ | ⟨l, qs, e1, e2, e3⟩
    · rw [hp] at e; cases e
    · rw [hp] at e3; cases e3
      obtain ⟨T, k1, k2, k3, _⟩ := ports_accepted hq e2
      have := hc.dports l e1
      exact ⟨T, k1, k2, by omega⟩
  · intro p hp
    rcases h.built.sports with ⟨_, e⟩ | ⟨l, qs, e1, e2, e3⟩
    · rw [hp] at e; cases e
    · rw [hp] at e3; cases e3
      obtain ⟨T, k1, k2, k3, _⟩ := ports_accepted hq e2
      have := hc.sports l e1
      exact ⟨T, k1, k2, by omega⟩
  · intro m hm
    rcases h.built.mtch with ⟨_, e⟩ | ⟨l, qs, e1, e2, e3⟩
    · rw [hm] at e; cases e
    · rw [hm] at e3; cases e3
      obtain ⟨k1, k2⟩ := addAll_parsed l [] m (by intro i hi; cases hi) e2
      refine ⟨k1, ?_⟩
      have := fullText_len m (fun i hi => by
        obtain ⟨s, hs⟩ := k1 i hi
        obtain ⟨_, _, _, _, h4⟩ := item_expr hs
        exact h4)
      have h2 := hc.mtch l e1
      simp only [List.length_nil] at k2
      omega

/-! ### The list -/

theorem printFlows_cons (cnt : Flow → Nat) (ref : Option (Nat → Res (List Char))) (f : Flow) (r : List Flow) {s t : List Char} (h1 : printFlow f (cnt f) ref = .ok s) (h2 : printFlows cnt ref r = .ok t) :
    printFlows cnt ref (f :: r) = .ok (s ++ (if r = [] then [] else [',', '\n']) ++ t) := by
  have e : printFlows cnt ref (f :: r) = (printFlow f (cnt f) ref >>= fun s => printFlows cnt ref r >>= fun t => Res.ok (s ++ (if r ≠ [] then ",\n".toList else []) ++ t)) := rfl
  rw [e, h1, h2]
  by_cases hr : r = []
  · rw [if_pos hr]
    show Res.ok (s ++ (if r ≠ [] then ",\n".toList else []) ++ t) = _
    rw [if_neg (not_not.2 hr)]
  · rw [if_neg hr]
    show Res.ok (s ++ (if r ≠ [] then ",\n".toList else []) ++ t) = _
    rw [if_pos hr]
    rfl

/-- What is listed for the flows. -/
def Shown (cnt : Flow → Nat) (tgt : Flow → Option (List Char)) (f : Flow) (d : Listed) : Prop := Lists f d ∧ d.count = cnt f ∧ d.target = tgt f

theorem printFlows_ok (cnt : Flow → Nat) (ref : Option (Nat → Res (List Char))) (tgt : Flow → Option (List Char)) : ∀ (l : List Flow), (∀ f ∈ l, Printable f) →
    (∀ f ∈ l, Both (fun r t => r f.userRef = .ok t ∧ t.all plainChar = true) ref (tgt f)) →
    ∃ ds txt, printFlows cnt ref l = .ok txt ∧ Each (Shown cnt tgt) l ds ∧ (l ≠ [] → ∀ w, Ws w → ElemsRead (ds.map Listed.json) (w ++ txt)) ∧ (l = [] → txt = [])
  | [], _, _ => ⟨[], [], rfl, .nil, fun h => absurd rfl h, fun _ => rfl⟩
  | f :: l, hp, hr => by
    obtain ⟨d, s, h1, h2, h3, h4, h5⟩ := printFlow_ok (hp f (by simp)) (cnt f) ref (tgt f) (hr f (by simp))
    obtain ⟨ds, txt, k1, k2, k3, k4⟩ := printFlows_ok cnt ref tgt l (fun x hx => hp x (by simp [hx])) (fun x hx => hr x (by simp [hx]))
    refine ⟨d :: ds, _, printFlows_cons cnt ref f l h1 k1, .cons ⟨h2, h3, h4⟩ k2, ?_, by simp⟩
    intro _ w hw
    by_cases hl : l = []
    · rw [if_pos hl, k4 hl]
      have hds : ds = [] := (Each.ne_nil k2).1 hl
      subst hds
      have := elems_one (reads_ws hw h5)
      simpa using this
    · rw [if_neg hl]
      have := elems_cons (reads_ws hw h5) (k3 hl ['\n'] (ws_of (by decide)))
      simpa [List.append_assoc] using this

theorem list_ok (cnt : Flow → Nat) (ref : Option (Nat → Res (List Char))) (tgt : Flow → Option (List Char)) (set : FlowSet) (hp : ∀ f ∈ set.flows, Printable f)
    (hr : ∀ f ∈ set.flows, Both (fun r t => r f.userRef = .ok t ∧ t.all plainChar = true) ref (tgt f)) :
    ∃ ds txt, flowSetPrint set none cnt ref = .ok txt ∧ Each (Shown cnt tgt) set.flows ds ∧ parse txt = some (.arr (ds.map Listed.json)) := by
  obtain ⟨ds, txt, h1, h2, h3, h4⟩ := printFlows_ok cnt ref tgt set.flows hp hr
  refine ⟨ds, ['['] ++ txt ++ "]\n".toList, ?_, h2, ?_⟩
  · have e : flowSetPrint set none cnt ref = (printFlows cnt ref set.flows >>= fun s => Res.ok (['['] ++ s ++ "]\n".toList)) := rfl
    rw [e, h1]
    rfl
  · have e : "]\n".toList = [']'] ++ ['\n'] := rfl
    rw [e, ← List.append_assoc]
    refine parse_reads ?_ (ws_of (by decide))
    by_cases hl : set.flows = []
    · rw [h4 hl]
      have hds : ds = [] := (Each.ne_nil h2).1 hl
      subst hds
      exact reads_arr_nil (w := []) (ws_of (by decide))
    · have := reads_arr (h3 hl [] (ws_of (by decide))) (w := []) (ws_of (by decide))
      simpa using this

/-! ### The names -/

theorem names_read : ∀ (l : List Flow) (f : Flow), (∀ g ∈ f :: l, g.name.all plainChar = true) →
    ElemsRead ((f :: l).map (fun g => .str g.name)) (['\n', ' ', ' ', '"'] ++ f.name ++ ['"'] ++ printNames l)
  | [], f, h => by
    have := elems_one (reads_ws (ws := ['\n', ' ', ' ']) (ws_of (by decide)) (reads_str (h f (by simp))))
    simpa [printNames] using this
  | g :: l, f, h => by
    have := elems_cons (reads_ws (ws := ['\n', ' ', ' ']) (ws_of (by decide)) (reads_str (h f (by simp)))) (names_read l g (fun x hx => h x (by simp [hx])))
    have e : printNames (g :: l) = ',' :: (['\n', ' ', ' ', '"'] ++ g.name ++ ['"'] ++ printNames l) := by
      have : printNames (g :: l) = ",\n  \"".toList ++ g.name ++ ['"'] ++ printNames l := rfl
      rw [this]
      rfl
    rw [e]
    simpa using this

theorem names_ok (set : FlowSet) (h : ∀ f ∈ set.flows, f.name.all plainChar = true) : parse (flowSetPrintNames set) = some (strings (set.flows.map (fun f => f.name))) := by
  cases hs : set.flows with
  | nil =>
    have e : flowSetPrintNames set = "[]\n".toList := by unfold flowSetPrintNames; rw [hs]
    rw [e]
    exact parse_reads (s := ['[', ']']) (w := ['\n']) (reads_arr_nil (w := []) (ws_of (by decide))) (ws_of (by decide))
  | cons f l =>
    have e : flowSetPrintNames set = ('[' :: ((['\n', ' ', ' ', '"'] ++ f.name ++ ['"'] ++ printNames l) ++ (['\n'] ++ [']']))) ++ ['\n'] := by
      have : flowSetPrintNames set = "[\n  \"".toList ++ f.name ++ ['"'] ++ printNames l ++ "\n]\n".toList := by unfold flowSetPrintNames; rw [hs]
      rw [this]
      have e1 : "[\n  \"".toList = ['[', '\n', ' ', ' ', '"'] := rfl
      have e2 : "\n]\n".toList = ['\n', ']', '\n'] := rfl
      rw [e1, e2]
      simp
    rw [e]
    refine parse_reads ?_ (ws_of (by decide))
    have := reads_arr (names_read l f (by rw [← hs]; exact h)) (w := ['\n']) (ws_of (by decide))
    simpa [strings, Function.comp_def] using this

end Nfqlb.Flow
