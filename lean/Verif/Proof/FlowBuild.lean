import Verif.Proof.FlowText
import Verif.Proof.MatchText

/-! Making a flow from its definition. -/

set_option autoImplicit false

namespace Nfqlb.Flow

open Nfqlb.Spec Nfqlb.Spec.FL Nfqlb.Spec.RS Nfqlb.RS

/-! ### Ports -/

/-- The range set can be used and freed. -/
def PortsOK (p : Option Ports) : Prop := ∀ q, p = some q → ∃ T A, Inv q.heap q.set T A

theorem scanU_le {s : List Char} {v : Nat} {r : List Char} (h : CText.scanU s = some (v, r)) : v ≤ 4294967295 := by
  unfold CText.scanU at h
  simp only [Option.ite_none_left_eq_some, Option.some.injEq, Prod.mk.injEq] at h
  rw [← h.2.1]
  unfold u32
  omega

theorem addOne_some (h : Heap) (t : RangeSet) (tok : List Char) : rangeSetAddOneStr h t tok = (h, t, -1) ∨
    ∃ a b, a ≤ 4294967295 ∧ b ≤ 4294967295 ∧ rangeSetAddOneStr h t tok = rangeSetAdd h t a b := by
  unfold rangeSetAddOneStr
  split
  · split
    · rename_i first r e1
      split
      · rename_i last r2 e2
        split
        · exact .inl rfl
        · exact .inr ⟨first, last, scanU_le e1, scanU_le e2, rfl⟩
      · exact .inl rfl
    · exact .inl rfl
  · split
    · rename_i first r e1
      exact .inr ⟨first, first, scanU_le e1, scanU_le e1, rfl⟩
    · exact .inl rfl

theorem addToks_some : ∀ (toks : List (List Char)) (h : Heap) (t : RangeSet), ∃ l x, Unsigned l ∧ l.length ≤ toks.length ∧ addToks h t toks = ((addAll h t l).1, (addAll h t l).2.1, x)
  | [], h, t => ⟨[], 0, by simp [Unsigned], by simp, rfl⟩
  | tok :: toks, h, t => by
    rcases addOne_some h t tok with he | ⟨a, b, ha, hb, he⟩
    · exact ⟨[], -1, by simp [Unsigned], by simp, by simp [addToks, he, addAll]⟩
    · by_cases hr : (rangeSetAdd h t a b).2.2 = 0
      · obtain ⟨l, x, h1, h2, h3⟩ := addToks_some toks (rangeSetAdd h t a b).1 (rangeSetAdd h t a b).2.1
        refine ⟨(a, b) :: l, x, ?_, by simp; omega, ?_⟩
        · intro r hr; simp only [List.mem_cons] at hr
          rcases hr with rfl | hr
          · exact ⟨ha, hb⟩
          · exact h1 r hr
        · simp only [addToks, he, hr, addAll]
          rw [if_neg (by simp), h3]
      · refine ⟨[(a, b)], -1, ?_, by simp, ?_⟩
        · intro r hr; simp only [List.mem_cons, List.not_mem_nil, or_false] at hr
          subst hr; exact ⟨ha, hb⟩
        · simp only [addToks, he, addAll]
          rw [if_pos hr]

theorem tokensAux_len (seps : List Char) : ∀ (s cur : List Char), (CText.tokensAux seps cur s).length ≤ s.length + 1
  | [], cur => by simp only [CText.tokensAux]; split <;> simp
  | c :: s, cur => by
    have h1 := tokensAux_len seps s []; have h2 := tokensAux_len seps s (c :: cur)
    simp only [CText.tokensAux, List.length_cons]
    split
    · split
      · omega
      · simp only [List.length_cons]; omega
    · omega

theorem ports_total {rq : (Nat → Nat) → List Nat → List Nat} (hq : QSort rq) (s : List Char) : ∃ p ok, definePorts rq s = .ok (p, ok) ∧ ∃ T A, Inv p.heap p.set T A := by
  have h0 : Inv noHeap ⟨0, 1, 65535, none, none⟩ .leaf .leaf := Inv.empty rfl rfl rfl (by show 65535 ≤ 4294967295; omega)
  have hc : rangeSetCreateLimited 1 65535 = some ⟨0, 1, 65535, none, none⟩ := by decide
  obtain ⟨l, x, hu, hl, he⟩ := addToks_some (CText.tokens [',', ' '] (s.take 1024)) noHeap ⟨0, 1, 65535, none, none⟩
  have hlen : l.length ≤ 1025 := by
    have h1 := tokensAux_len [',', ' '] (s.take 1024) []
    have h2 : (s.take 1024).length ≤ 1024 := by rw [List.length_take]; omega
    unfold CText.tokens at hl
    omega
  obtain ⟨h1, t1, A, e1, H1, _⟩ := addAll_ok l h0 hu (by simp only; omega)
  unfold definePorts rangeSetAddStr
  rw [hc]
  dsimp only
  rw [he, e1]
  dsimp only
  by_cases hx : x = 0
  · rw [if_neg (by simp [hx])]
    obtain ⟨h2, t2, T, e2, H2, _⟩ := update_ok hq H1 (.inl rfl)
    rw [e2]
    exact ⟨_, _, rfl, T, .leaf, H2⟩
  · rw [if_pos hx]
    exact ⟨_, _, rfl, .leaf, A, H1⟩

theorem tokensAux_sep (seps : List Char) (c : Char) (hc : c ∈ seps) : ∀ (s cur : List Char), CText.tokensAux seps cur (s ++ [c]) = CText.tokensAux seps cur s
  | [], cur => by
    simp only [List.nil_append, CText.tokensAux, hc, if_true]
  | d :: s, cur => by
    simp only [List.cons_append, CText.tokensAux, tokensAux_sep seps c hc s]

theorem showRanges_eq : ∀ (l : List (Nat × Nat)), l ≠ [] → showRanges l = portsText l ++ [',']
  | [], h => absurd rfl h
  | [r], _ => by simp [showRanges, portsText, showRange, portText]
  | r :: s :: l, _ => by
    have ih := showRanges_eq (s :: l) (by simp)
    rw [showRanges, List.flatMap_cons]
    unfold showRanges at ih
    rw [ih]
    simp [portsText, showRange, portText]

theorem tokens_ports (l : List (Nat × Nat)) : CText.tokens [',', ' '] (portsText l) = l.map item := by
  cases l with
  | nil => rfl
  | cons r l =>
    rw [← tokens_show, showRanges_eq _ (by simp)]
    unfold CText.tokens
    rw [tokensAux_sep _ _ (by simp)]

theorem ports_text {rq : (Nat → Nat) → List Nat → List Nat} (hq : QSort rq) (l : List (Nat × Nat)) (hw : PortsWF l) :
    ∃ p, definePorts rq (portsText l) = .ok (p, true) ∧ ∀ v, RS.rangeSetIn p.heap p.set v = .ok (decide (∃ r ∈ l, r.1 ≤ v ∧ v ≤ r.2)) := by
  obtain ⟨hw, hlen⟩ := hw
  have h0 : Inv noHeap ⟨0, 1, 65535, none, none⟩ .leaf .leaf := Inv.empty rfl rfl rfl (by show 65535 ≤ 4294967295; omega)
  have hc : rangeSetCreateLimited 1 65535 = some ⟨0, 1, 65535, none, none⟩ := by decide
  have hall : ∀ r ∈ l, Allowed 1 65535 r := fun r hr => by obtain ⟨h1, h2, h3⟩ := hw r hr; exact ⟨h2, h1, h3⟩
  have hu : Unsigned l := fun r hr => by obtain ⟨h1, h2, h3⟩ := hw r hr; omega
  have hll : l.length ≤ 1025 := by
    have h1 := tokensAux_len [',', ' '] (portsText l) []
    have h2 := congrArg List.length (tokens_ports l)
    rw [List.length_map] at h2
    unfold CText.tokens at h2
    omega
  obtain ⟨h1, t1, A, e1, H1, v1, _⟩ := addAll_ok l h0 hu (by simp only; omega)
  obtain ⟨h2, t2, T, e2, H2, v2, _⟩ := update_ok hq H1 (.inl rfl)
  refine ⟨⟨h2, t2⟩, ?_, ?_⟩
  · unfold definePorts rangeSetAddStr
    rw [hc]
    dsimp only
    rw [List.take_of_length_le hlen, tokens_ports, addToks_items l _ _ hall (by show 65535 ≤ 4294967295; omega), e1]
    dsimp only
    rw [if_neg (by simp), e2]
    rfl
  · intro v
    rw [H2.isIn]
    congr 1
    rw [decide_eq_decide, v2, v1]
    simp only [Tree.vals, List.nil_append, Covers, List.mem_filter, decide_eq_true_eq]
    constructor
    · rintro ⟨r, ⟨h1, _⟩, h3⟩; exact ⟨r, h1, h3⟩
    · rintro ⟨r, h1, h3⟩; exact ⟨r, ⟨h1, hall r h1⟩, h3⟩

/-! ### Nothing undefined -/

/-- The flow can be used and freed. -/
def FlowOK (f : Flow) : Prop := PortsOK f.dports ∧ PortsOK f.sports

theorem freePorts_ok {p : Option Ports} (h : PortsOK p) : freePorts p = .ok () := by
  cases p with
  | none => rfl
  | some q =>
    obtain ⟨T, A, H⟩ := h q rfl
    obtain ⟨h', e, _⟩ := destroy_ok H
    simp only [freePorts, e, Res.ok_bind, Res.pure_eq]

theorem flowFree_ok {f : Flow} (h : FlowOK f) : flowFree f = .ok () := by
  unfold flowFree
  rw [freePorts_ok h.1, freePorts_ok h.2]
  rfl

theorem portPasses_ok {p : Option Ports} (h : PortsOK p) (x : Raw16) : ∃ b, portPasses p x = .ok b := by
  cases p with
  | none => exact ⟨true, rfl⟩
  | some q =>
    obtain ⟨T, A, H⟩ := h q rfl
    exact ⟨_, H.isIn _⟩

/-- What stays the same while a flow is made. -/
def SameBase (f g : Flow) : Prop := g.name = f.name ∧ g.priority = f.priority ∧ g.userRef = f.userRef ∧ g.udpencap = f.udpencap

/-- A part of `flowDefine` where nothing undefined happens if `P`. -/
def Stage (P : Prop) (st : Flow → Res (Flow × Bool)) : Prop := ∀ f, FlowOK f → (∃ g ok, st f = .ok (g, ok) ∧ FlowOK g ∧ SameBase f g) ∨ (¬ P ∧ st f = .ub)

theorem Stage.next {P : Prop} {s k : Flow → Res (Flow × Bool)} (hs : Stage P s) (hk : Stage P k) : Stage P (fun f => next (s f) k) := by
  intro f hf
  rcases hs f hf with ⟨g, ok, e, hg, hb⟩ | ⟨hn, e⟩
  · simp only [Flow.next, e, Res.ok_bind, Res.pure_eq]
    cases ok with
    | false => exact .inl ⟨g, false, rfl, hg, hb⟩
    | true =>
      rw [if_pos rfl]
      rcases hk g hg with ⟨g2, ok2, e2, hg2, hb2⟩ | h
      · obtain ⟨a1, a2, a3, a4⟩ := hb; obtain ⟨b1, b2, b3, b4⟩ := hb2
        exact .inl ⟨g2, ok2, e2, hg2, by rw [b1, a1], by rw [b2, a2], by rw [b3, a3], by rw [b4, a4]⟩
      · exact .inr h
  · exact .inr ⟨hn, by simp only [Flow.next, e, Res.ub_bind]⟩

/-- Texts of networks with a colon have fewer than 128 characters. -/
def ShortNets (l : Option (List (List Char))) : Prop := ∀ m, l = some m → ∀ s ∈ m, ':' ∈ s → s.length < 128

theorem stProtocols_stage (P : Prop) (a : Args) : Stage P (stProtocols a) := by
  intro f hf
  left
  unfold stProtocols
  split
  · exact ⟨_, _, rfl, hf, rfl, rfl, rfl, rfl⟩
  · split <;> exact ⟨_, _, rfl, hf, rfl, rfl, rfl, rfl⟩

theorem stDports_stage (P : Prop) {rq : (Nat → Nat) → List Nat → List Nat} (hq : QSort rq) (a : Args) : Stage P (stDports rq a) := by
  intro f hf
  left
  unfold stDports
  split
  · exact ⟨_, _, rfl, hf, rfl, rfl, rfl, rfl⟩
  · rename_i s _
    obtain ⟨p, ok, e, T, A, H⟩ := ports_total hq s
    rw [e]
    refine ⟨_, _, rfl, ⟨?_, hf.2⟩, rfl, rfl, rfl, rfl⟩
    rintro q ⟨⟩
    exact ⟨T, A, H⟩

theorem stSports_stage (P : Prop) {rq : (Nat → Nat) → List Nat → List Nat} (hq : QSort rq) (a : Args) : Stage P (stSports rq a) := by
  intro f hf
  left
  unfold stSports
  split
  · exact ⟨_, _, rfl, hf, rfl, rfl, rfl, rfl⟩
  · rename_i s _
    obtain ⟨p, ok, e, T, A, H⟩ := ports_total hq s
    rw [e]
    refine ⟨_, _, rfl, ⟨hf.1, ?_⟩, rfl, rfl, rfl, rfl⟩
    rintro q ⟨⟩
    exact ⟨T, A, H⟩

theorem stDsts_stage (P : Prop) (a : Args) (h : P → ShortNets a.dsts) : Stage P (stDsts a) := by
  intro f hf
  unfold stDsts
  split
  · exact .inl ⟨_, _, rfl, hf, rfl, rfl, rfl, rfl⟩
  · rename_i l hl
    rcases parseCidrs_cases l with ⟨r, e⟩ | ⟨hn, e⟩
    · rw [e]
      cases r <;> exact .inl ⟨_, _, rfl, hf, rfl, rfl, rfl, rfl⟩
    · rw [e]
      exact .inr ⟨fun hp => hn (h hp l hl), rfl⟩

theorem stSrcs_stage (P : Prop) (a : Args) (h : P → ShortNets a.srcs) : Stage P (stSrcs a) := by
  intro f hf
  unfold stSrcs
  split
  · exact .inl ⟨_, _, rfl, hf, rfl, rfl, rfl, rfl⟩
  · rename_i l hl
    rcases parseCidrs_cases l with ⟨r, e⟩ | ⟨hn, e⟩
    · rw [e]
      cases r <;> exact .inl ⟨_, _, rfl, hf, rfl, rfl, rfl, rfl⟩
    · rw [e]
      exact .inr ⟨fun hp => hn (h hp l hl), rfl⟩

theorem addAll_total : ∀ (l : List (List Char)) (m : Match.Match), ∃ r, Match.matchAddAll m l = .ok r
  | [], m => ⟨_, rfl⟩
  | s :: l, m => by
    obtain ⟨r, e⟩ := Match.parse_ok s
    unfold Match.matchAddAll Match.matchAdd
    rw [e]
    cases r with
    | none => exact ⟨_, rfl⟩
    | some i => exact addAll_total l _

theorem stMatch_stage (P : Prop) (a : Args) : Stage P (stMatch a) := by
  intro f hf
  left
  unfold stMatch
  split
  · exact ⟨_, _, rfl, hf, rfl, rfl, rfl, rfl⟩
  · rename_i l _
    obtain ⟨r, e⟩ := addAll_total l []
    rw [e]
    cases r <;> exact ⟨_, _, rfl, hf, rfl, rfl, rfl, rfl⟩

/-- What is made is as defined, and if no text is too long nothing undefined happens. -/
theorem build_cases {rq : (Nat → Nat) → List Nat → List Nat} (hq : QSort rq) (a : Args) (name : List Char) :
    (∃ r, build rq a name = .ok r ∧ ∀ f, r = some f → FlowOK f ∧ f.name = name.take 1024 ∧ f.priority = a.priority ∧ f.userRef = a.userRef ∧ f.udpencap = a.udpencap) ∨
      (¬ (ShortNets a.dsts ∧ ShortNets a.srcs) ∧ build rq a name = .ub) := by
  have hst : Stage (ShortNets a.dsts ∧ ShortNets a.srcs) (fun f => next (next (next (next (next (stProtocols a f) (stDports rq a)) (stSports rq a)) (stDsts a)) (stSrcs a)) (stMatch a)) :=
    (((((stProtocols_stage _ a).next (stDports_stage _ hq a)).next (stSports_stage _ hq a)).next (stDsts_stage _ a And.left)).next (stSrcs_stage _ a And.right)).next (stMatch_stage _ a)
  rcases hst ⟨name.take 1024, a.priority, a.userRef, none, none, none, none, none, none, a.udpencap⟩ ⟨by rintro q ⟨⟩, by rintro q ⟨⟩⟩ with ⟨g, ok, e, hg, hb⟩ | ⟨hn, e⟩
  · left
    unfold build
    dsimp only at e ⊢
    rw [e]
    simp only [Res.ok_bind, Res.pure_eq]
    cases ok with
    | true =>
      rw [if_pos rfl]
      refine ⟨_, rfl, ?_⟩
      rintro f ⟨⟩
      exact ⟨hg, hb⟩
    | false =>
      rw [if_neg (by simp), flowFree_ok hg]
      refine ⟨none, rfl, ?_⟩
      rintro f ⟨⟩
  · refine .inr ⟨hn, ?_⟩
    unfold build
    dsimp only at e ⊢
    rw [e]
    rfl

/-! ### As written -/

theorem lower_eq (c : Char) : CText.lower c = c.toLower := by
  unfold CText.lower Char.toLower
  by_cases h : 'A' ≤ c ∧ c ≤ 'Z'
  · rw [if_pos h]
    have h1 : 65 ≤ c.toNat := h.1
    have h2 : c.toNat ≤ 90 := h.2
    have h3 : c.val ≥ 'A'.val ∧ c.val ≤ 'Z'.val := ⟨h.1, h.2⟩
    rw [dif_pos h3]
    apply Char.ext
    apply UInt32.toNat_inj.1
    have hv : (c.toNat + 32).isValidChar := .inl (by omega)
    rw [Char.ofNat, dif_pos hv]
    show c.toNat + 32 = (c.val + ('a'.val - 'A'.val)).toNat
    rw [UInt32.toNat_add]
    have : ('a'.val - 'A'.val).toNat = 32 := by decide
    rw [this]
    have h4 : c.val.toNat = c.toNat := rfl
    rw [h4]
    omega
  · rw [if_neg h]
    rw [dif_neg (fun hc => h ⟨hc.1, hc.2⟩)]

theorem caseEq_names (p : BM.Proto) (s : List Char) : CText.caseEq p.text s = true ↔ Names s p := by
  unfold CText.caseEq Names
  rw [beq_iff_eq]
  have h1 : (CText.lower : Char → Char) = Char.toLower := funext lower_eq
  rw [h1]
  have h2 : p.text.map Char.toLower = p.text := by cases p <;> decide
  rw [h2]
  exact eq_comm

theorem protoNum_iff (k : Key) (p : UInt8) : protoNum k = p.toNat ↔ k.proto = (p, 0) := by
  unfold protoNum
  have h1 := k.proto.1.toNat_lt; have h2 := p.toNat_lt; have h3 := k.proto.2.toNat_lt
  constructor
  · intro h
    have e1 : k.proto.1 = p := UInt8.toNat_inj.1 (by omega)
    have e2 : k.proto.2 = 0 := UInt8.toNat_inj.1 (by simp only [UInt8.toNat_zero]; omega)
    rw [← e1, ← e2]
  · intro h
    rw [h]; simp

theorem parseProtocol_names (l : List (List Char)) (h : ∀ s ∈ l, ∃ p, Names s p) :
    ∃ ps, parseProtocol l = some ps ∧ ∀ k : Key, (protoPasses (some ps) k = true ↔ ∃ s ∈ l, ∃ p, Names s p ∧ k.proto = (p.num, 0)) := by
  have e1 : "tcp".toList = BM.Proto.text .tcp := rfl
  have e2 : "udp".toList = BM.Proto.text .udp := rfl
  have e3 : "sctp".toList = BM.Proto.text .sctp := rfl
  unfold parseProtocol
  rw [e1, e2, e3, if_pos]
  · refine ⟨_, rfl, ?_⟩
    intro k
    simp only [protoPasses, List.any_append, Bool.or_eq_true]
    have hone : ∀ (p : BM.Proto), ((if l.any (CText.caseEq p.text) = true then [p.num.toNat] else []).any (fun q => decide (protoNum k = q)) = true ↔ ∃ s ∈ l, Names s p ∧ k.proto = (p.num, 0)) := by
      intro p
      split
      · rename_i hc
        simp only [List.any_cons, List.any_nil, Bool.or_false, decide_eq_true_eq, protoNum_iff]
        rw [List.any_eq_true] at hc
        obtain ⟨s, hs, hn⟩ := hc
        exact ⟨fun hk => ⟨s, hs, (caseEq_names _ _).1 hn, hk⟩, fun ⟨_, _, _, hk⟩ => hk⟩
      · rename_i hc
        simp only [List.any_nil, Bool.false_eq_true, false_iff]
        rintro ⟨s, hs, hn, _⟩
        exact hc (List.any_eq_true.2 ⟨s, hs, (caseEq_names _ _).2 hn⟩)
    have h1 := hone .tcp; have h2 := hone .udp; have h3 := hone .sctp
    simp only [show BM.Proto.tcp.num.toNat = 6 from rfl, show BM.Proto.udp.num.toNat = 17 from rfl, show BM.Proto.sctp.num.toNat = 132 from rfl] at h1 h2 h3
    rw [h1, h2, h3]
    constructor
    · rintro ((⟨s, a, b⟩ | ⟨s, a, b⟩) | ⟨s, a, b⟩)
      · exact ⟨s, a, _, b⟩
      · exact ⟨s, a, _, b⟩
      · exact ⟨s, a, _, b⟩
    · rintro ⟨s, a, p, b⟩
      cases p with
      | tcp => exact .inl (.inl ⟨s, a, b⟩)
      | udp => exact .inl (.inr ⟨s, a, b⟩)
      | sctp => exact .inr ⟨s, a, b⟩
  · rw [List.all_eq_true]
    intro s hs
    obtain ⟨p, hp⟩ := h s hs
    rw [← caseEq_names] at hp
    cases p <;> simp [hp]

end Nfqlb.Flow
