import Verif.Proof.FlowLb
import Verif.Proof.FlowBuilt

/-! The invariant of the histories. -/

set_option autoImplicit false

namespace Nfqlb.FlowLb

open Nfqlb Nfqlb.Spec Nfqlb.Spec.FL Nfqlb.Spec.FLB Nfqlb.Spec.RS Nfqlb.Flow

/-- A flow for encapsulating UDP packets. -/
structure Helper (f : Flow.Flow) : Prop where
  udpencap : f.udpencap ≠ 0
  protocols : f.protocols = some [17]
  dports : ∀ x, portPasses f.dports x = .ok (decide (ntohs x = f.udpencap))
  sports : f.sports = none
  mtch : f.mtch = none

structure Facts (f : Flow.Flow) : Prop where
  hash : f.userRef = 0 ↔ f.name.head? = some '#'
  encap : f.userRef ≠ 0 → f.udpencap ≠ 0 → f.protocols = some [132]
  helper : f.userRef = 0 → Helper f
  len : f.name.length ≤ 1019

structure Inv (s : Sys) : Prop where
  bal : Bal s.st (refs s)
  flowset : SetOK s.st.fset
  flows : ∀ f ∈ s.st.fset.flows, Facts f
  held : ∀ h ∈ s.held, h.1 ≠ 0

/-! ### Counting -/

theorem perm_extract : ∀ {l : List Flow.Flow} {g : Flow.Flow}, l.Pairwise (fun f g => f.name ≠ g.name) → g ∈ l → l.Perm (g :: l.filter (fun f => f.name ≠ g.name))
  | [], g, _, h => by cases h
  | a :: l, g, hp, h => by
    rw [List.pairwise_cons] at hp
    rw [List.mem_cons] at h
    rcases h with rfl | h
    · rw [List.filter_cons_of_neg (by simp)]
      rw [filter_all (fun x hx => (hp.1 x hx).symm)]
    · rw [List.filter_cons_of_pos (by simp [hp.1 g h])]
      exact ((perm_extract hp.2 h).cons a).trans (List.Perm.swap _ _ _)

def one (b : Bool) : Nat := if b = true then 1 else 0

theorem countP_cons' (q : Flow.Flow → Bool) (f : Flow.Flow) (l : List Flow.Flow) : (f :: l).countP q = l.countP q + one (q f) := by
  rw [List.countP_cons]; rfl

/-- A new name. -/
theorem after_new {st st' : FlowSet} {f : Flow.Flow} (ha : After st st' f) (hn : ∀ g ∈ st.flows, g.name ≠ f.name) (q : Flow.Flow → Bool) :
    st'.flows.countP q = st.flows.countP q + one (q f) := by
  rw [ha.2.countP_eq, countP_cons', filter_all hn]

/-- A name that is in the set. -/
theorem after_old {st st' : FlowSet} (hs : SetOK st) {f g : Flow.Flow} (ha : After st st' f) (hg : g ∈ st.flows) (hn : g.name = f.name) (q : Flow.Flow → Bool) :
    st'.flows.countP q + one (q g) = st.flows.countP q + one (q f) := by
  have h1 := perm_extract hs.names hg
  rw [hn] at h1
  rw [ha.2.countP_eq, h1.countP_eq, countP_cons', countP_cons']
  omega

theorem delete_count {st : FlowSet} (hs : SetOK st) {g : Flow.Flow} (hg : g ∈ st.flows) (q : Flow.Flow → Bool) :
    (st.flows.filter (fun f => f.name ≠ g.name)).countP q + one (q g) = st.flows.countP q := by
  have h1 := perm_extract hs.names hg
  have h2 := h1.countP_eq q
  rw [countP_cons'] at h2
  exact h2.symm

theorem flow_refs {s : Sys} {f : Flow.Flow} (hf : f ∈ s.st.fset.flows) : 0 < refs s f.userRef := by
  unfold refs
  have : 0 < s.st.fset.flows.countP (fun g => g.userRef == f.userRef) := List.countP_pos_iff.2 ⟨f, hf, by simp⟩
  omega

theorem mem_after {st st' : FlowSet} {f g : Flow.Flow} (ha : After st st' f) (hg : g ∈ st'.flows) : g = f ∨ (g ∈ st.flows ∧ g.name ≠ f.name) := by
  have := (ha.2.mem_iff).1 hg
  simpa using this

/-! ### What the new flows are -/

theorem digits_text (n : Nat) : Nat.toDigits 10 n = portsText [(n, n)] := by simp [portsText, portText]

theorem udp_facts {rq : (Nat → Nat) → List Nat → List Nat} (hq : QSort rq) {c : Cmd} {n : List Char} (hl : n.length ≤ 1018) (h0 : c.udpencap ≠ 0) (h1 : c.udpencap < 65536) {f : Flow.Flow}
    (hb : build rq (udpArgs c ('#' :: n)) ('#' :: n) = .ok (some f)) (hname : f.name = '#' :: n) (hu : f.userRef = 0) (he : f.udpencap = c.udpencap) : Facts f := by
  have k := build_fields hb
  refine ⟨?_, fun h => absurd hu h, fun _ => ⟨by rw [he]; exact h0, ?_, ?_, ?_, ?_⟩, by rw [hname, List.length_cons]; omega⟩
  · rw [hname, hu]; simp
  · rcases k.protocols with ⟨h, _⟩ | ⟨l, ps, h, h2, h3⟩
    · cases h
    · cases h
      have : parseProtocol ["udp".toList] = some [17] := by decide +kernel
      rw [this] at h2
      cases h2
      exact h3
  · rcases k.dports with ⟨h, _⟩ | ⟨l, ps, h, h2, h3⟩
    · cases h
    · cases h
      rw [digits_text] at h2
      obtain ⟨p, e1, e2⟩ := ports_text hq [(c.udpencap, c.udpencap)] ⟨by intro r hr; simp only [List.mem_singleton] at hr; subst hr; dsimp only; omega, by
        rw [← digits_text]
        have : (Nat.toDigits 10 c.udpencap).length ≤ 5 := (Nat.length_toDigits_le_iff (by omega) (by omega)).2 (by omega)
        omega⟩
      rw [e1] at h2
      cases h2
      intro x
      rw [h3, he]
      unfold portPasses
      dsimp only
      rw [e2]
      simp only [List.mem_singleton, exists_eq_left, Res.ok.injEq, decide_eq_decide]
      omega
  · rcases k.sports with ⟨_, h⟩ | ⟨l, ps, h, h2, h3⟩
    · exact h
    · cases h
  · rcases k.mtch with ⟨_, h⟩ | ⟨l, ps, h, h2, h3⟩
    · exact h
    · cases h

theorem sctp_list {p : List Char} (h : CText.caseEq p "sctp".toList = true) : parseProtocol [p] = some [132] := by
  unfold CText.caseEq at h
  rw [beq_iff_eq] at h
  unfold parseProtocol
  have h1 : CText.caseEq "tcp".toList p = false := by unfold CText.caseEq; rw [h]; decide +kernel
  have h2 : CText.caseEq "udp".toList p = false := by unfold CText.caseEq; rw [h]; decide +kernel
  have h3 : CText.caseEq "sctp".toList p = true := by unfold CText.caseEq; rw [h]; decide +kernel
  simp only [List.all_cons, List.all_nil, List.any_cons, List.any_nil, Bool.or_false, h1, h2, h3]
  rfl

theorem flow_facts {rq : (Nat → Nat) → List Nat → List Nat} {c : Cmd} {n : List Char} {lb : Nat} (hl : n.length ≤ 1018) (hh : n.head? ≠ some '#') (hlb : lb ≠ 0)
    (hs : c.udpencap ≠ 0 → sctpOnly c.protocols = true) {f : Flow.Flow} (hb : build rq (flowArgs c lb) n = .ok (some f)) (hname : f.name = n) (hu : f.userRef = lb) (he : f.udpencap = c.udpencap) : Facts f := by
  have k := build_fields hb
  refine ⟨?_, ?_, fun h => absurd (hu ▸ h) hlb, by rw [hname]; omega⟩
  · rw [hname, hu]
    exact ⟨fun h => absurd h hlb, fun h => absurd h hh⟩
  · intro _ h0
    have hs := hs (by rw [← he]; exact h0)
    unfold sctpOnly at hs
    rcases k.protocols with ⟨h, _⟩ | ⟨l, ps, h, h2, h3⟩
    · have h : c.protocols = none := h
      rw [h] at hs
      cases hs
    · have h : c.protocols = some l := h
      rw [h] at hs
      split at hs
      · rename_i heq
        cases heq
        rw [sctp_list hs] at h2
        cases h2
        exact h3
      · cases hs

/-! ### The start -/

theorem start_inv (ping : Bool) : Inv ⟨start ping, []⟩ := by
  refine ⟨⟨rfl, Nat.le_refl 1, fun _ _ => rfl, (by intro p lb h; cases h), fun _ _ _ => rfl, by simp [start], by simp [start], (by intro p q a b h; cases h)⟩, ?_, by simp [start, flowSetCreate, flowSetPromiscuousPing], by simp⟩
  exact ⟨by simp [start, flowSetCreate, flowSetPromiscuousPing], by simp [start, flowSetCreate, flowSetPromiscuousPing], by simp [start, flowSetCreate, flowSetPromiscuousPing], by simp [start, flowSetCreate, flowSetPromiscuousPing]⟩

/-! ### `cmd_set` -/

theorem dec_inc (R : Nat → Nat) (p : Nat) : dec (inc R p) p = R := by
  funext q
  unfold dec inc
  by_cases h : q = p <;> simp [h]

theorem lookupName_cases {s : Sys} (hi : Inv s) (n : List Char) (hn : n.head? ≠ some '#') :
    (lookupName s.st (some n) = .ok (s.st, none) ∧ ∀ f ∈ s.st.fset.flows, f.name ≠ n) ∨
    ∃ f st', f ∈ s.st.fset.flows ∧ f.name = n ∧ f.userRef ≠ 0 ∧ lookupName s.st (some n) = .ok (st', some (f.userRef, f.udpencap)) ∧ st'.fset = s.st.fset ∧ Bal st' (inc (refs s) f.userRef) ∧
      (∀ q l, s.st.heap q = some l → ∃ l', st'.heap q = some l' ∧ l'.target = l.target ∧ l'.seg = l.seg) := by
  unfold lookupName flowLookupName
  dsimp only
  cases hf : s.st.fset.flows.find? (fun f => sameName f.name n) with
  | none =>
    rw [List.find?_eq_none] at hf
    exact .inl ⟨rfl, fun f hm hn => hf f hm ((sameName_iff (hi.flowset.short f hm)).2 hn)⟩
  | some f =>
    have h1 := List.mem_of_find?_eq_some hf
    have h2 := (sameName_iff (hi.flowset.short f h1)).1 (by have := List.find?_some hf; simpa using this)
    have h0 : f.userRef ≠ 0 := fun h => hn (by rw [← h2]; exact ((hi.flows f h1).hash).1 h)
    obtain ⟨st', e1, e2, e3, e4⟩ := lock_ok hi.bal (flow_refs h1) h0
    refine .inr ⟨f, st', h1, h2, h0, ?_, e2, e3, e4⟩
    dsimp only
    rw [e1]
    rfl

theorem setLb_spec {s : Sys} (hi : Inv s) (env : Env) {c : Cmd} {n t : List Char} (hn : c.name = some n) (ht : c.target = some t) (hh : n.head? ≠ some '#') :
    ∃ st' r, setLb env s.st c = .ok (st', r) ∧ st'.fset = s.st.fset ∧ (∀ q, r = .inr q → ∃ l, st'.heap q = some l ∧ l.target = t) ∧
      ((∃ reply, (reply = .alter ∨ reply = .newLb ∨ reply = .lb) ∧ r = .inl reply ∧ Bal st' (refs s)) ∨
       (∃ f ∈ s.st.fset.flows, f.name = n ∧ f.userRef ≠ 0 ∧ r = .inr f.userRef ∧ Bal st' (refs s)) ∨
       (∃ f ∈ s.st.fset.flows, f.name = n ∧ f.userRef ≠ 0 ∧ (∃ l, s.st.heap f.userRef = some l ∧ l.target ≠ t) ∧ ∃ q, q ≠ 0 ∧ r = .inr q ∧ Bal st' (dec (inc (refs s) q) f.userRef)) ∨
       ((∀ f ∈ s.st.fset.flows, f.name ≠ n) ∧ ∃ q, q ≠ 0 ∧ r = .inr q ∧ Bal st' (inc (refs s) q))) := by
  unfold setLb
  rw [hn, ht]
  rcases lookupName_cases hi n hh with ⟨e, hno⟩ | ⟨f, st1, h1, h2, h0, e, hfs, hb, hkeep⟩
  · rw [e]
    simp only [Res.ok_bind, Res.pure_eq]
    rcases find_ok (env := env) hi.bal t with e | ⟨st', q, e, hq, k1, k2, k3, k4⟩
    · rw [e]
      exact ⟨s.st, _, rfl, rfl, by simp, .inl ⟨.lb, by simp, rfl, hi.bal⟩⟩
    · rw [e]
      simp only [Res.ok_bind]
      rw [if_neg hq]
      exact ⟨st', _, rfl, k1, (by intro x hx; cases hx; exact k3), .inr (.inr (.inr ⟨hno, q, hq, rfl, k2⟩))⟩
  · rw [e]
    simp only [Res.ok_bind, Res.pure_eq]
    have hr : 0 < refs s f.userRef := flow_refs h1
    obtain ⟨st2, e1, e2, e3, e4⟩ := release_ok hb (p := f.userRef) (by unfold inc; rw [if_pos rfl]; omega) h0
    rw [dec_inc] at e3
    rw [e1]
    simp only [Res.ok_bind]
    by_cases hu : f.udpencap ≠ c.udpencap
    · rw [if_pos hu]
      exact ⟨st2, _, rfl, by rw [e2, hfs], by simp, .inl ⟨.alter, by simp, rfl, e3⟩⟩
    · rw [if_neg hu]
      cases hl : s.st.heap f.userRef with
      | none => have := hi.bal.dead _ h0 hl; omega
      | some l =>
        obtain ⟨l1, a1, a2, a3⟩ := hkeep _ l hl
        obtain ⟨l2, b1, b2, b3⟩ := e4 _ l1 a1 (.inr (by unfold inc; rw [if_pos rfl]; omega))
        rw [b1]
        dsimp only
        by_cases htt : t ≠ l2.target
        · rw [if_pos htt]
          rcases find_ok (env := env) e3 t with e | ⟨st3, q, e, hq, k1, k2, k3, k4⟩
          · rw [e]
            exact ⟨st2, _, rfl, by rw [e2, hfs], by simp, .inl ⟨.newLb, by simp, rfl, e3⟩⟩
          · rw [e]
            simp only [Res.ok_bind]
            rw [if_neg hq]
            obtain ⟨st4, m1, m2, m3, m4⟩ := release_ok k2 (p := f.userRef) (by unfold inc; split <;> omega) h0
            rw [m1]
            refine ⟨st4, _, rfl, by rw [m2, k1, e2, hfs], ?_, .inr (.inr (.inl ⟨f, h1, h2, h0, ⟨l, hl, ?_⟩, q, hq, rfl, m3⟩))⟩
            · intro x hx
              cases hx
              obtain ⟨l3, y1, y2⟩ := k3
              have hne : q ≠ f.userRef := by
                rintro rfl
                obtain ⟨l4, z1, z2⟩ := k4 _ l2 b1
                rw [z1] at y1
                cases y1
                exact htt (by rw [← y2, z2])
              obtain ⟨l5, w1, w2, _⟩ := m4 q l3 y1 (.inl hne)
              exact ⟨l5, w1, by rw [w2, y2]⟩
            · rw [← a2, ← b2]; exact fun h => htt h.symm
        · rw [if_neg htt]
          exact ⟨st2, _, rfl, by rw [e2, hfs], (by intro x hx; cases hx; exact ⟨l2, b1, (Classical.not_not.1 htt).symm⟩), .inr (.inl ⟨f, h1, h2, h0, rfl, e3⟩)⟩

/-- Only flows without target changed. -/
structure HelperOnly (a b : FlowSet) (n : List Char) : Prop where
  refs : ∀ p, p ≠ 0 → b.flows.countP (fun f => f.userRef == p) = a.flows.countP (fun f => f.userRef == p)
  mem : ∀ f, f.name = n → (f ∈ b.flows ↔ f ∈ a.flows)

theorem setUdp_cases {rq : (Nat → Nat) → List Nat → List Nat} (hq : QSort rq) {fq : List Flow.Flow → List Flow.Flow} (hfq : Sorts fq) {st : St} (hs : SetOK st.fset) (hf : ∀ f ∈ st.fset.flows, Facts f)
    {c : Cmd} {n : List Char} (hn : c.name = some n) (hl : n.length ≤ 1018) (hh : n.head? ≠ some '#') (hu : c.udpencap < 65536) :
    (setUdp rq fq st c = .ub ∧ ¬ (ShortNets c.dsts ∧ ShortNets c.srcs ∧ Mild c.priority ∧ ∀ f ∈ st.fset.flows, Mild f.priority)) ∨
    ∃ fset r, setUdp rq fq st c = .ok ({ st with fset := fset }, r) ∧ (r = none ∨ r = some .sctp ∨ r = some .define) ∧ (r = none → c.udpencap ≠ 0 → sctpOnly c.protocols = true) ∧
      SetOK fset ∧ (∀ f ∈ fset.flows, Facts f) ∧ HelperOnly st.fset fset n ∧ ((∀ f ∈ st.fset.flows, Mild f.priority) → Mild c.priority → ∀ f ∈ fset.flows, Mild f.priority) := by
  unfold setUdp
  by_cases h0 : c.udpencap = 0
  · rw [if_pos h0]
    exact .inr ⟨st.fset, none, rfl, by simp, fun _ h => absurd h0 h, hs, hf, ⟨fun _ _ => rfl, fun _ _ => Iff.rfl⟩, fun h _ => h⟩
  · rw [if_neg h0]
    by_cases h1 : sctpOnly c.protocols = false
    · rw [if_pos h1]
      exact .inr ⟨st.fset, _, rfl, by simp, by simp, hs, hf, ⟨fun _ _ => rfl, fun _ _ => Iff.rfl⟩, fun h _ => h⟩
    · rw [if_neg h1, hn]
      unfold udpName
      dsimp only
      rw [if_neg (by omega)]
      simp only [Res.ok_bind, Res.pure_eq]
      rcases define_cases hq hfq hs (udpArgs c ('#' :: n)) with e | ⟨s', f, nm, e, e1, e2, e3, e4, e5, e6, e7, k1, k2⟩ | ⟨e, hno⟩
      · rw [e]
        exact .inr ⟨st.fset, some .define, rfl, by simp, by simp, hs, hf, ⟨fun _ _ => rfl, fun _ _ => Iff.rfl⟩, fun h _ => h⟩
      · rw [e]
        have : nm = '#' :: n := by
          have : (some ('#' :: n) : Option (List Char)) = some nm := e1
          cases this; rfl
        subst this
        have hu0 : f.userRef = 0 := e6
        have hff := udp_facts hq hl h0 hu e2 e4 hu0 e7
        right
        refine ⟨s', none, rfl, by simp, fun _ _ => by simpa using h1, k2, ?_, ⟨?_, ?_⟩, ?_⟩
        · intro g hg
          rcases mem_after k1 hg with rfl | ⟨hg, _⟩
          · exact hff
          · exact hf g hg
        · intro p hp
          by_cases hex : ∃ g ∈ st.fset.flows, g.name = f.name
          · obtain ⟨g, hg, hgn⟩ := hex
            have hg0 : g.userRef = 0 := ((hf g hg).hash).2 (by rw [hgn, e4]; rfl)
            have := after_old hs k1 hg hgn (fun f => f.userRef == p)
            simp only [hg0, hu0] at this
            omega
          · have := after_new k1 (fun g hg hgn => hex ⟨g, hg, hgn⟩) (fun f => f.userRef == p)
            rw [this, hu0]
            have : ((0 : Nat) == p) = false := by simp; omega
            rw [this]; rfl
        · intro g hgn
          have hne : g.name ≠ f.name := by
            rw [hgn, e4]
            intro hc
            apply hh
            rw [hc]; rfl
          constructor
          · intro hg
            rcases mem_after k1 hg with rfl | ⟨hg, _⟩
            · exact absurd rfl hne
            · exact hg
          · intro hg
            exact (k1.2.mem_iff).2 (by simp [hg, hne])
        · intro hm hc g hg
          rcases mem_after k1 hg with rfl | ⟨hg, _⟩
          · rw [e5]; exact hc
          · exact hm g hg
      · rw [e]
        exact .inl ⟨rfl, hno⟩

theorem refs_flows (st : St) (held : List (Nat × Parsed)) (p : Nat) : refs ⟨st, held⟩ p = st.fset.flows.countP (fun f => f.userRef == p) + held.countP (fun h => h.1 == p) := rfl

theorem Bal.fset {st : St} {R : Nat → Nat} (h : Bal st R) (fs : FlowSet) : Bal { st with fset := fs } R := ⟨h.null, h.pos, h.fresh, h.count, h.dead, h.listed, h.nodup, h.uniq⟩

theorem one_eq (a p : Nat) : one (a == p) = if p = a then 1 else 0 := by
  unfold one
  by_cases h : p = a
  · subst h; simp
  · have : (a == p) = false := by simp; exact fun h2 => h h2.symm
    rw [this, if_neg h]; rfl

theorem cmdSet_cases {rq : (Nat → Nat) → List Nat → List Nat} (hq : QSort rq) {fq : List Flow.Flow → List Flow.Flow} (hfq : Sorts fq) {s : Sys} (hi : Inv s) (env : Env) {c : Cmd} (hc : Named c) :
    (cmdSet rq fq env s.st c = .ub ∧ ¬ (ShortNets c.dsts ∧ ShortNets c.srcs ∧ Mild c.priority ∧ ∀ f ∈ s.st.fset.flows, Mild f.priority)) ∨
    ∃ st r, cmdSet rq fq env s.st c = .ok (st, r) ∧ ((r = .sctp ∨ r = .define → SameTarget s.st c) → Inv ⟨st, s.held⟩) := by
  obtain ⟨n, t, hn, ht, hh, hl, hu⟩ := hc
  obtain ⟨st1, r1, e1, hfs, _, hr⟩ := setLb_spec hi env hn ht hh
  unfold cmdSet
  rw [e1]
  simp only [Res.ok_bind, Res.pure_eq]
  have hset : SetOK st1.fset := by rw [hfs]; exact hi.flowset
  have hfl : ∀ f ∈ st1.fset.flows, Facts f := by rw [hfs]; exact hi.flows
  -- the end of both kinds of refusal: the references did not change
  have hsame : ∀ (fs : FlowSet), SetOK fs → (∀ f ∈ fs.flows, Facts f) → HelperOnly s.st.fset fs n → Bal st1 (refs s) → Inv ⟨{ st1 with fset := fs }, s.held⟩ := by
    intro fs h1 h2 h3 h4
    refine ⟨(h4.fset fs).congr ?_, h1, h2, hi.held⟩
    intro p hp
    rw [refs_flows]
    show fs.flows.countP _ + _ = _
    rw [h3.refs p hp]
    rfl
  have hnoTarget : SameTarget s.st c → (∀ f ∈ s.st.fset.flows, f.name = n → ∀ l, s.st.heap f.userRef = some l → l.target ≠ t) → False := by
    rintro ⟨f, hf, h1, l, h2, h3⟩ h
    rw [hn] at h1; rw [ht] at h3
    cases h1; cases h3
    exact h f hf rfl l h2 rfl
  have huniq : ∀ f ∈ s.st.fset.flows, ∀ g ∈ s.st.fset.flows, f.name = g.name → f = g := by
    intro f hf g hg hfg
    have := (perm_extract hi.flowset.names hg).mem_iff.1 hf
    simp only [List.mem_cons, List.mem_filter] at this
    rcases this with h | ⟨_, h⟩
    · exact h
    · simp only [ne_eq, decide_not, Bool.not_eq_eq_eq_not, Bool.not_true, decide_eq_false_iff_not] at h
      exact absurd hfg h
  cases r1 with
  | inl reply =>
    rcases hr with ⟨rep, hrep, hr, hb⟩ | ⟨_, _, _, _, hr, _⟩ | ⟨_, _, _, _, _, _, _, hr, _⟩ | ⟨_, _, _, hr, _⟩
    · cases hr
      refine .inr ⟨st1, _, rfl, fun _ => ?_⟩
      have := hsame st1.fset hset hfl (by rw [hfs]; exact ⟨fun _ _ => rfl, fun _ _ => Iff.rfl⟩) hb
      exact this
    · cases hr
    · cases hr
    · cases hr
  | inr lb =>
    dsimp only
    rcases setUdp_cases hq hfq hset hfl (c := c) hn hl hh hu with ⟨e2, hno⟩ | ⟨fs, r2, e2, hr2, hsctp, k1, k2, k3, k4⟩
    · rw [e2]
      refine .inl ⟨rfl, ?_⟩
      rw [hfs] at hno; exact hno
    · rw [e2]
      simp only [Res.ok_bind]
      rw [hfs] at k3 k4
      -- a refusal
      have hrefuse : ∀ (fs' : FlowSet), SetOK fs' → (∀ f ∈ fs'.flows, Facts f) → HelperOnly s.st.fset fs' n → SameTarget s.st c → Inv ⟨{ st1 with fset := fs' }, s.held⟩ := by
        intro fs' h1 h2 h3 hst
        rcases hr with ⟨_, _, hr, _⟩ | ⟨f, hf, _, _, hr, hb⟩ | ⟨f, hf, hfn, _, ⟨l, hl1, hl2⟩, _⟩ | ⟨hno, _⟩
        · cases hr
        · exact hsame fs' h1 h2 h3 hb
        · exfalso
          refine hnoTarget hst ?_
          intro g hg hgn l' hl'
          rw [huniq g hg f hf (by rw [hgn, hfn]), hl1] at hl'
          cases hl'
          exact hl2
        · exact (hnoTarget hst (fun g hg hgn => absurd hgn (hno g hg))).elim
      cases r2 with
      | some rep =>
        refine .inr ⟨_, _, rfl, fun hst => ?_⟩
        have hrep : rep = .sctp ∨ rep = .define := by
          rcases hr2 with h | h | h
          · cases h
          · cases h; exact .inl rfl
          · cases h; exact .inr rfl
        exact hrefuse fs k1 k2 k3 (hst hrep)
      | none =>
        dsimp only
        unfold setFlow
        dsimp only
        rcases define_cases hq hfq k1 (flowArgs c lb) with e | ⟨s', f, nm, e, f1, f2, f3, f4, f5, f6, f7, a1, a2⟩ | ⟨e, hno⟩
        · rw [e]
          exact .inr ⟨_, _, rfl, fun hst => hrefuse fs k1 k2 k3 (hst (.inr rfl))⟩
        · rw [e]
          have : nm = n := by
            have h : c.name = some nm := f1
            rw [hn] at h; cases h; rfl
          subst this
          have hlb : lb ≠ 0 := by
            rcases hr with ⟨_, _, hr, _⟩ | ⟨g, _, _, h0, hr, _⟩ | ⟨_, _, _, _, _, q, h0, hr, _⟩ | ⟨_, q, h0, hr, _⟩ <;> cases hr <;> exact h0
          have hff := flow_facts hl hh hlb (hsctp rfl) f2 f4 f6 f7
          refine .inr ⟨_, _, rfl, fun _ => ⟨?_, a2, ?_, hi.held⟩⟩
          · have hu : f.userRef = lb := f6
            have hbal : ∃ R, Bal st1 R ∧ ∀ p, p ≠ 0 → refs ⟨{ st1 with fset := s' }, s.held⟩ p = R p := by
              rcases hr with ⟨_, _, hr, _⟩ | ⟨g, hg, hgn, h0, hr, hb⟩ | ⟨g, hg, hgn, h0, _, q, hq0, hr, hb⟩ | ⟨hno, q, hq0, hr, hb⟩
              · cases hr
              · cases hr
                refine ⟨_, hb, ?_⟩
                intro p hp
                have c1 := after_old k1 a1 ((k3.mem g hgn).2 hg) (by rw [hgn, f4]) (fun f => f.userRef == p)
                have c2 := k3.refs p hp
                rw [refs_flows]
                dsimp only [refs]
                simp only [hu] at c1
                omega
              · cases hr
                refine ⟨_, hb, ?_⟩
                intro p hp
                have c1 := after_old k1 a1 ((k3.mem g hgn).2 hg) (by rw [hgn, f4]) (fun f => f.userRef == p)
                have c2 := k3.refs p hp
                have c3 := flow_refs hg
                rw [refs_flows]
                simp only [hu, one_eq] at c1
                unfold dec inc
                unfold refs at c3 ⊢
                dsimp only
                by_cases hp1 : p = g.userRef
                · by_cases hp2 : p = lb
                  · rw [if_pos hp1] at c1 ⊢
                    rw [if_pos hp2] at c1 ⊢
                    omega
                  · rw [if_pos hp1] at c1 ⊢
                    rw [if_neg hp2] at c1 ⊢
                    rw [← hp1] at c3
                    omega
                · by_cases hp2 : p = lb
                  · rw [if_neg hp1] at c1 ⊢
                    rw [if_pos hp2] at c1 ⊢
                    omega
                  · rw [if_neg hp1] at c1 ⊢
                    rw [if_neg hp2] at c1 ⊢
                    omega
              · cases hr
                refine ⟨_, hb, ?_⟩
                intro p hp
                have c1 := after_new a1 (fun g hg hgn => hno g ((k3.mem g (by rw [hgn, f4])).1 hg) (by rw [hgn, f4])) (fun f => f.userRef == p)
                have c2 := k3.refs p hp
                rw [refs_flows]
                simp only [hu, one_eq] at c1
                unfold inc refs
                dsimp only
                by_cases hp2 : p = lb
                · rw [if_pos hp2] at c1 ⊢; omega
                · rw [if_neg hp2] at c1 ⊢; omega
            obtain ⟨R, hb, hR⟩ := hbal
            exact (hb.fset s').congr hR
          · intro g hg
            rcases mem_after a1 hg with rfl | ⟨hg, _⟩
            · exact hff
            · exact k2 g hg
        · rw [e]
          refine .inl ⟨rfl, ?_⟩
          rintro ⟨h1, h2, h3, h4⟩
          exact hno ⟨h1, h2, h3, k4 h4 h3⟩

end Nfqlb.FlowLb
