import Verif.Proof.FlowAgain
import Verif.Props.Flow

/-! C61, C62: listing flows. -/

set_option autoImplicit false

namespace Nfqlb.Props

open Nfqlb.Flow Nfqlb.Spec Nfqlb.Spec.FL Nfqlb.Spec.BM Nfqlb.Spec.RS Nfqlb.Spec.J Nfqlb.Spec.FP

/-- The names of targets that `ref` finds for the flow, if there is `ref`, are plain text. -/
def TargetText (ref : Option (Nat → Res (List Char))) (tgt : Flow.Flow → Option (List Char)) (f : Flow.Flow) : Prop := Both (fun r t => r f.userRef = .ok t ∧ t.all plainChar = true) ref (tgt f)

theorem printable_of {rq : (Nat → Nat) → List Nat → List Nat} (hq : QSort rq) {fq : List Flow.Flow → List Flow.Flow} (hfq : Sorts fq) {ops : List Op} {set : FlowSet} (hr : run rq fq flowSetCreate ops = .ok set)
    (hc : ∀ a, Op.define a ∈ ops → CanList a) : ∀ f ∈ set.flows, ∃ a, From rq f a ∧ CanList a := by
  intro f hf
  rcases run_from hq hfq ops create_ok hr f hf with h | ⟨a, h1, h2⟩
  · simp [flowSetCreate] at h
  · exact ⟨a, h2, hc a h1⟩

/-- After any history of definitions that can be listed, the list of all flows is JSON, with one object for each flow in the set, in this order, that says what the flow is: the same networks, ports, protocols
and match expressions as the flow in memory has. Missing for C61: definitions that cannot be listed, see `C61_violated`. -/
theorem C61_list_partial (rq : (Nat → Nat) → List Nat → List Nat) (hq : QSort rq) (fq : List Flow.Flow → List Flow.Flow) (hfq : Sorts fq) (ops : List Op) (set : FlowSet) (hr : run rq fq flowSetCreate ops = .ok set)
    (hc : ∀ a, Op.define a ∈ ops → CanList a) (cnt : Flow.Flow → Nat) (ref : Option (Nat → Res (List Char))) (tgt : Flow.Flow → Option (List Char)) (ht : ∀ f ∈ set.flows, TargetText ref tgt f) :
    ∃ ds txt, flowSetPrint set none cnt ref = .ok txt ∧ parse txt = some (.arr (ds.map Listed.json)) ∧ Each (fun f d => Lists f d ∧ d.count = cnt f ∧ d.target = tgt f) set.flows ds := by
  obtain ⟨ds, txt, h1, h2, h3⟩ := list_ok cnt ref tgt set (fun f hf => by
    obtain ⟨a, h1, h2⟩ := printable_of hq hfq hr hc f hf
    exact from_printable hq h1 h2) ht
  exact ⟨ds, txt, h1, h3, h2⟩

/-- With a name, this flow is listed alone, in the same way; nothing is written if there is none with the name. -/
theorem C61_one_partial (rq : (Nat → Nat) → List Nat → List Nat) (hq : QSort rq) (fq : List Flow.Flow → List Flow.Flow) (hfq : Sorts fq) (ops : List Op) (set : FlowSet) (hr : run rq fq flowSetCreate ops = .ok set)
    (hc : ∀ a, Op.define a ∈ ops → CanList a) (cnt : Flow.Flow → Nat) (ref : Option (Nat → Res (List Char))) (tgt : Flow.Flow → Option (List Char)) (ht : ∀ f ∈ set.flows, TargetText ref tgt f) (name : List Char) :
    (∀ f ∈ set.flows, f.name = name → ∃ d txt, flowSetPrint set (some name) cnt ref = .ok txt ∧ parse txt = some d.json ∧ Lists f d ∧ d.count = cnt f ∧ d.target = tgt f) ∧
    ((∀ f ∈ set.flows, f.name ≠ name) → flowSetPrint set (some name) cnt ref = .ok []) := by
  have hs := run_ok hq hfq ops create_ok hr
  constructor
  · intro f hf hn
    obtain ⟨a, h1, h2⟩ := printable_of hq hfq hr hc f hf
    obtain ⟨d, txt, k1, k2, k3, k4, k5⟩ := printFlow_ok (from_printable hq h1 h2) (cnt f) ref (tgt f) (ht f hf)
    refine ⟨d, txt, ?_, ?_, k2, k3, k4⟩
    · have e : flowSetPrint set (some name) cnt ref = (match set.flows.find? (fun f => decide (name = f.name)) with | none => .ok [] | some f => printFlow f (cnt f) ref) := rfl
      rw [e]
      cases hfi : set.flows.find? (fun f => decide (name = f.name)) with
      | none =>
        have := List.find?_eq_none.1 hfi f hf
        simp [hn] at this
      | some g =>
        have g1 := List.mem_of_find?_eq_some hfi
        have g2 := List.find?_some hfi
        simp only [decide_eq_true_eq] at g2
        have : g = f := names_unique set.flows hs.names g g1 f hf (by rw [hn, g2])
        subst this
        exact k1
    · have := parse_reads k5 (w := []) (ws_of (by decide))
      simpa using this
  · intro hn
    have e : flowSetPrint set (some name) cnt ref = (match set.flows.find? (fun f => decide (name = f.name)) with | none => .ok [] | some f => printFlow f (cnt f) ref) := rfl
    rw [e, List.find?_eq_none.2 (fun f hf => by simpa using fun h => hn f hf h.symm)]

/-- The list of names is a JSON array of the names of all flows. Missing for C61: names that are not plain text, see `C61_violated`. -/
theorem C61_names_partial (set : FlowSet) (h : ∀ f ∈ set.flows, f.name.all plainChar = true) : parse (flowSetPrintNames set) = some (strings (set.flows.map (fun f => f.name))) := names_ok set h

/-! A set with two flows, one with all criteria. -/

theorem fDef_can : CanList fDef.args where
  name := by rintro n ⟨⟩; decide
  priority := by decide
  protocols := by decide
  dports := by rintro s ⟨⟩; decide +kernel
  sports := by rintro s ⟨⟩; decide +kernel
  mtch := by rintro s ⟨⟩; decide +kernel

theorem fArgs_can (name : String) (priority : Int) (target : Nat) (dsts : List String) (h1 : name.toList.all plainChar = true) (h2 : 0 ≤ priority ∧ priority ≤ 2147483647) : CanList (fArgs name priority target dsts) where
  name := by rintro n ⟨⟩; exact h1
  priority := h2
  protocols := by simp [fArgs]
  dports := by rintro s ⟨⟩
  sports := by rintro s ⟨⟩
  mtch := by rintro s ⟨⟩

def pHist : List Op := [.define fDef.args, .define (fArgs "b" 9 2 ["10.0.0.0/24"])]

example : ∀ a, Op.define a ∈ pHist → CanList a := by
  intro a ha
  simp only [pHist, List.mem_cons, Op.define.injEq, List.not_mem_nil, or_false] at ha
  rcases ha with rfl | rfl
  · exact fDef_can
  · exact fArgs_can _ _ _ _ (by decide) (by decide)

example : (do let set ← run isort fisort flowSetCreate pHist; return set.flows.map (fun f => String.ofList f.name)) = Res.ok ["web", "b"] := by decide +kernel

/-- The targets for the example. -/
def pRef (p : Nat) : Res (List Char) := if p = 7 then .ok "lb-a".toList else if p = 2 then .ok "lb-b".toList else .ub

example (f : Flow.Flow) (h : f.userRef = 7) : TargetText (some pRef) (fun _ => some "lb-a".toList) f := .inr ⟨_, _, rfl, rfl, by rw [h]; rfl, by decide⟩

example : (do let set ← run isort fisort flowSetCreate pHist; let t ← flowSetPrint set (some "b".toList) (fun _ => 5) (some pRef); return String.ofList t) =
    Res.ok "{\n  \"name\": \"b\",\n  \"priority\": 9,\n  \"dests\": [\n    \"::ffff:10.0.0.0/120\"\n  ],\n  \"matches_count\": 5,\n  \"user_ref\": \"lb-b\"\n}" := by decide +kernel

/-- C61 as stated is false (/repo/src/lib/flow.c:458-629).
* Characters are not escaped: if a name has a quotation mark then the list is not JSON.
* A negative priority is printed with `%u`: -1 is listed as 4294967295.
* The text of match expressions is cut at 1024 characters: 40 expressions are accepted, and 34 are listed, and a piece of the next one. (The text of ports is cut too, but only for definitions with 1023 or more characters.)
* An empty list of protocols, which no packet matches, is listed as one protocol without a name. -/
theorem C61_violated :
    (do let set ← run isort fisort flowSetCreate [.define (fArgs "a\"b" 1 1 ["10.0.0.0/24"])]; let t ← flowSetPrint set none (fun _ => 0) none; return (parse t).isNone) = Res.ok true ∧
    (do let set ← run isort fisort flowSetCreate [.define (fArgs "a" (-1) 1 ["10.0.0.0/24"])]; let t ← flowSetPrint set none (fun _ => 0) none; return String.ofList (t.take 42)) =
      Res.ok "[{\n  \"name\": \"a\",\n  \"priority\": 4294967295" ∧
    (do
      let m ← Match.matchAddAll [] (List.replicate 40 "tcp[0:4]&0x0fffffff=4294967295".toList)
      let t ← printMatch (m.getD [])
      return (m.map List.length, t.count '"')) = Res.ok (some 40, 2 * 35) ∧
    (do let set ← run isort fisort flowSetCreate [.define { fArgs "a" 1 1 ["10.0.0.0/24"] with protocols := some [] }]; return set.flows.map (fun f => String.ofList (printProtocols f))) =
      Res.ok [",\n  \"protocols\": [ \"\" ]"] := by
  refine ⟨by decide +kernel, by decide +kernel, by decide +kernel, by decide +kernel⟩

/-- After any history of definitions that can be listed: what is listed for a flow defines, given again as arguments, a flow that cannot be told apart from it by any packet. -/
theorem C62_again_partial (rq : (Nat → Nat) → List Nat → List Nat) (hq : QSort rq) (fq : List Flow.Flow → List Flow.Flow) (hfq : Sorts fq) (ops : List Op) (set : FlowSet) (hr : run rq fq flowSetCreate ops = .ok set)
    (hc : ∀ a, Op.define a ∈ ops → CanList a) (f : Flow.Flow) (hf : f ∈ set.flows) (d : Listed) (hd : Lists f d) : ∃ g, build rq (d.args f.userRef) d.name = .ok (some g) ∧ SameFlow f g := by
  obtain ⟨a, h1, h2⟩ := printable_of hq hfq hr hc f hf
  exact again_ok hq h1 h2 ((run_ok hq hfq ops create_ok hr).short f hf) hd

/-- Saving and restoring: after any history of definitions that can be listed, with different priorities, defining all flows that are listed, in a new set, is accepted, and in the new set every packet finds the
same target as in the old one. -/
theorem C62_restore_partial (rq : (Nat → Nat) → List Nat → List Nat) (hq : QSort rq) (fq : List Flow.Flow → List Flow.Flow) (hfq : Sorts fq) (ops : List Op) (set : FlowSet) (hr : run rq fq flowSetCreate ops = .ok set)
    (hc : ∀ a, Op.define a ∈ ops → CanList a) (hp : set.flows.Pairwise (fun f g => f.priority ≠ g.priority)) (ds : List Listed) (hd : Each Lists set.flows ds) :
    ∃ set', run rq fq (flowSetPromiscuousPing flowSetCreate set.ping) (List.zipWith (fun f d => Op.define (d.args f.userRef)) set.flows ds) = .ok set' ∧ Each SameFlow set.flows set'.flows ∧
      ∀ (key : Key) (l3 : Nat) (data : Packet) (u : Nat), key.src.length = 16 → key.dst.length = 16 → flowLookup set' key l3 data u = flowLookup set key l3 data u := by
  have hs := run_ok hq hfq ops create_ok hr
  have hcr : SetOK (flowSetPromiscuousPing flowSetCreate set.ping) := ⟨by simp [flowSetCreate, flowSetPromiscuousPing], by simp [flowSetCreate, flowSetPromiscuousPing],
    by simp [flowSetCreate, flowSetPromiscuousPing], by simp [flowSetCreate, flowSetPromiscuousPing]⟩
  obtain ⟨s', gs, r1, r2, r3, r4, r5⟩ := replay hq hfq hd hcr (printable_of hq hfq hr hc) hs.short hs.names (by simp [flowSetCreate, flowSetPromiscuousPing]) (by simp [flowSetCreate, flowSetPromiscuousPing])
  have e : ∀ (l : List Flow.Flow) (m : List Listed), List.zipWith (fun f d => Op.define (d.args f.userRef)) l m = againOps l m := by
    intro l
    induction l with
    | nil => intro m; cases m <;> rfl
    | cons f l ih =>
      intro m
      cases m with
      | nil => rfl
      | cons d m => rw [List.zipWith_cons_cons, againOps, ih]
  have hsorted : set.flows.Pairwise (fun f g => g.priority < f.priority) := by
    have := hs.sorted.and hp
    exact this.imp (fun ⟨a, b⟩ => by omega)
  have hgs : gs.Pairwise (fun f g => g.priority < f.priority) := each_pairwise (R := SameFlow) (P := fun f g => g.priority < f.priority) (fun a b a' b' h h' hlt => by rw [h.priority, h'.priority]; exact hlt) r4 hsorted
  have hperm : s'.flows.Perm gs := by simpa [flowSetCreate, flowSetPromiscuousPing] using r5
  have heq : s'.flows = gs := by
    have hne : gs.Pairwise (fun f g => f.priority ≠ g.priority) := hgs.imp (fun h => by omega)
    have hne' : s'.flows.Pairwise (fun f g => f.priority ≠ g.priority) := hperm.symm.pairwise hne (fun h => Ne.symm h)
    have hs' : s'.flows.Pairwise (fun f g => g.priority < f.priority) := (r2.sorted.and hne').imp (fun ⟨a, b⟩ => by omega)
    exact hperm.eq_of_pairwise (fun a b _ _ h1 h2 => by omega) hs' hgs
  refine ⟨s', by rw [e]; exact r1, by rw [heq]; exact r4, ?_⟩
  intro key l3 data u h1 h2
  unfold flowLookup
  rw [heq, r3]
  exact lookup_same h1 h2 _ l3 data r4 u

/-- The histories of the examples above have different priorities. -/
example : (do let set ← run isort fisort flowSetCreate pHist; return decide (set.flows.Pairwise (fun f g => f.priority ≠ g.priority))) = Res.ok true := by decide +kernel

/-- C62 as stated is false: the match expressions that are listed for a flow with 40 of them are refused when they are given again, as the last one is cut. (The same holds for flows with an empty list of
protocols, or a name with a quotation mark.) -/
theorem C62_violated :
    (do
      let m ← Match.matchAddAll [] (List.replicate 40 "tcp[0:4]&0x0fffffff=4294967295".toList)
      let t ← printMatch (m.getD [])
      let again ← Match.matchAddAll [] (CText.tokens ['"', ',', '\n', ' '] t)
      return (m.isSome, again.isSome)) = Res.ok (true, false) ∧ parseProtocol [[]] = none := by
  refine ⟨by decide +kernel, by decide +kernel⟩

end Nfqlb.Props
