import Verif.Proof.FlowList
import Verif.Proof.FlowDef

/-! Defining flows again from what is listed. -/

set_option autoImplicit false

namespace Nfqlb.Flow

open Nfqlb.Spec Nfqlb.Spec.FL Nfqlb.Spec.RS Nfqlb.RS Nfqlb.RS.Tree Nfqlb.Spec.J Nfqlb.Spec.FP

theorem build_of {rq : (Nat → Nat) → List Nat → List Nat} {a : Args} {f : Flow} (h : Built rq a f) {name : List Char} (h1 : f.name = name.take 1024) (h2 : f.priority = a.priority) (h3 : f.userRef = a.userRef)
    (h4 : f.udpencap = a.udpencap) : build rq a name = .ok (some f) := by
  obtain ⟨_, _, _, ps, dp, sp, dn, sn, mm, _⟩ := f
  obtain ⟨p, d, s, n, m, q⟩ := h
  simp only at p d s n m q h1 h2 h3 h4
  subst h1 h2 h3 h4
  have e1 : ∀ f : Flow, f.protocols = none → stProtocols a f = .ok ({ f with protocols := ps }, true) := by
    rintro ⟨⟩ ⟨⟩
    unfold stProtocols
    rcases p with ⟨x, y⟩ | ⟨l, c, x, y, z⟩
    · rw [x, y]
    · simp only [x, y, z]
  have e2 : ∀ f : Flow, f.dports = none → stDports rq a f = .ok ({ f with dports := dp }, true) := by
    rintro ⟨⟩ ⟨⟩
    unfold stDports
    rcases d with ⟨x, y⟩ | ⟨l, c, x, y, z⟩
    · rw [x, y]
    · simp only [x, y, z, Res.ok_bind, Res.pure_eq]
  have e3 : ∀ f : Flow, f.sports = none → stSports rq a f = .ok ({ f with sports := sp }, true) := by
    rintro ⟨⟩ ⟨⟩
    unfold stSports
    rcases s with ⟨x, y⟩ | ⟨l, c, x, y, z⟩
    · rw [x, y]
    · simp only [x, y, z, Res.ok_bind, Res.pure_eq]
  have e4 : ∀ f : Flow, f.dsts = none → stDsts a f = .ok ({ f with dsts := dn }, true) := by
    rintro ⟨⟩ ⟨⟩
    unfold stDsts
    rcases n with ⟨x, y⟩ | ⟨l, c, x, y, z⟩
    · rw [x, y]
    · simp only [x, y, z, Res.ok_bind, Res.pure_eq]
  have e5 : ∀ f : Flow, f.srcs = none → stSrcs a f = .ok ({ f with srcs := sn }, true) := by
    rintro ⟨⟩ ⟨⟩
    unfold stSrcs
    rcases m with ⟨x, y⟩ | ⟨l, c, x, y, z⟩
    · rw [x, y]
    · simp only [x, y, z, Res.ok_bind, Res.pure_eq]
  have e6 : ∀ f : Flow, f.mtch = none → stMatch a f = .ok ({ f with mtch := mm }, true) := by
    rintro ⟨⟩ ⟨⟩
    unfold stMatch
    rcases q with ⟨x, y⟩ | ⟨l, c, x, y, z⟩
    · rw [x, y]
    · simp only [x, y, z, Res.ok_bind, Res.pure_eq]
  unfold build
  dsimp only
  rw [e1 _ rfl, show Flow.next (.ok (_, true)) (stDports rq a) = stDports rq a _ from rfl, e2 _ rfl, show Flow.next (.ok (_, true)) (stSports rq a) = stSports rq a _ from rfl, e3 _ rfl,
    show Flow.next (.ok (_, true)) (stDsts a) = stDsts a _ from rfl, e4 _ rfl, show Flow.next (.ok (_, true)) (stSrcs a) = stSrcs a _ from rfl, e5 _ rfl,
    show Flow.next (.ok (_, true)) (stMatch a) = stMatch a _ from rfl, e6 _ rfl]
  rfl

/-! ### The fields -/

theorem any_proto (q : List BM.Proto) (p : BM.Proto) : (q.map BM.Proto.text).any (CText.caseEq p.text) = decide (p ∈ q) := by
  induction q with
  | nil => simp
  | cons r q ih =>
    rw [List.map_cons, List.any_cons, ih]
    have : CText.caseEq p.text r.text = decide (p = r) := by cases p <;> cases r <;> decide
    rw [this]
    simp

theorem parse_protos (q : List BM.Proto) :
    parseProtocol (q.map BM.Proto.text) = some ((if BM.Proto.tcp ∈ q then [6] else []) ++ (if BM.Proto.udp ∈ q then [17] else []) ++ (if BM.Proto.sctp ∈ q then [132] else [])) := by
  unfold parseProtocol
  have e1 := any_proto q .tcp; have e2 := any_proto q .udp; have e3 := any_proto q .sctp
  rw [show BM.Proto.tcp.text = "tcp".toList from rfl] at e1
  rw [show BM.Proto.udp.text = "udp".toList from rfl] at e2
  rw [show BM.Proto.sctp.text = "sctp".toList from rfl] at e3
  rw [if_pos, e1, e2, e3]
  · simp
  · rw [List.all_eq_true]
    intro s hs
    rw [List.mem_map] at hs
    obtain ⟨p, _, rfl⟩ := hs
    cases p <;> decide

theorem protos_again {l : List (List Char)} {ps : List Nat} (h : parseProtocol l = some ps) {q : List BM.Proto} (hq : ps = q.map (fun p => p.num.toNat)) : parseProtocol (q.map BM.Proto.text) = some ps := by
  rw [parse_protos]
  unfold parseProtocol at h
  split at h
  · have h := (Option.some.inj h).symm
    have m6 : 6 ∈ ps ↔ BM.Proto.tcp ∈ q := by
      rw [hq, List.mem_map]
      constructor
      · rintro ⟨p, hp, e⟩; cases p
        · exact absurd e (by decide)
        · exact hp
        · exact absurd e (by decide)
      · exact fun hp => ⟨_, hp, rfl⟩
    have m17 : 17 ∈ ps ↔ BM.Proto.udp ∈ q := by
      rw [hq, List.mem_map]
      constructor
      · rintro ⟨p, hp, e⟩; cases p
        · exact absurd e (by decide)
        · exact absurd e (by decide)
        · exact hp
      · exact fun hp => ⟨_, hp, rfl⟩
    have m132 : 132 ∈ ps ↔ BM.Proto.sctp ∈ q := by
      rw [hq, List.mem_map]
      constructor
      · rintro ⟨p, hp, e⟩; cases p
        · exact hp
        · exact absurd e (by decide)
        · exact absurd e (by decide)
      · exact fun hp => ⟨_, hp, rfl⟩
    simp only [← m6, ← m17, ← m132]
    rw [h]
    generalize l.any (CText.caseEq "tcp".toList) = b1
    generalize l.any (CText.caseEq "udp".toList) = b2
    generalize l.any (CText.caseEq "sctp".toList) = b3
    cases b1 <;> cases b2 <;> cases b3 <;> decide
  · cases h

theorem nets_wf {cs : List Cidr} {ns : List Net} (h : Each SameNet cs ns) : (∀ n ∈ ns, n.WF) ∧ ns.length = cs.length ∧ ∀ x : List UInt8, x.length = 16 →
    ((cs.any (fun c => addrInCidr c x)) = true ↔ ∃ n ∈ ns, n.Contains x) := by
  induction h with
  | nil => simp
  | cons h _ ih =>
    obtain ⟨i1, i2, i3⟩ := ih
    refine ⟨?_, by simp [i2], ?_⟩
    · intro n hn
      rcases List.mem_cons.1 hn with rfl | hn
      · exact h.1
      · exact i1 n hn
    · intro x hx
      rw [List.any_cons, Bool.or_eq_true, i3 x hx, h.2 x hx]
      simp

theorem ports_again {rq : (Nat → Nat) → List Nat → List Nat} (hq : QSort rq) {p : Ports} (h : PortsFit p) {l : List (Nat × Nat)} (hl : SamePorts p l) :
    ∃ p', definePorts rq (portsText l) = .ok (p', true) ∧ ∀ v, rangeSetIn p'.heap p'.set v = rangeSetIn p.heap p.set v := by
  obtain ⟨T, H, h1, h2⟩ := h
  obtain ⟨s1, s2, s3⟩ := hl
  have hle := spaced_len (l := l) (m := vals T) s1 (fun r hr => (h1 r hr).1) (fun v => by
    have a := H.isIn v
    rw [s3 v] at a
    simpa using a)
  have hw : PortsWF l := by
    refine ⟨fun r hr => ⟨(s2 r hr).2.1, (s2 r hr).1, (s2 r hr).2.2⟩, ?_⟩
    cases l with
    | nil => simp [portsText]
    | cons r l =>
      rw [showRanges_eq _ (by simp), List.length_append] at hle
      omega
  obtain ⟨p', k1, k2⟩ := ports_text hq l hw
  refine ⟨p', k1, fun v => ?_⟩
  rw [k2, s3]
  rfl

theorem match_again : ∀ {m : Match.Match} {es : List BM.Expr}, Each SameMatch m es → ∀ m0, Match.matchAddAll m0 (es.map BM.Expr.text) = .ok (some (m0 ++ m)) := by
  intro m es h
  induction h with
  | nil => intro m0; simp [Match.matchAddAll]
  | cons h _ ih =>
    intro m0
    rw [List.map_cons]
    unfold Match.matchAddAll Match.matchAdd
    rw [h.2]
    simp only [Res.ok_bind, Res.pure_eq]
    rw [ih]
    simp

/-- Defining a flow again. -/
theorem again_ok {rq : (Nat → Nat) → List Nat → List Nat} (hq : QSort rq) {f : Flow} {a : Args} (hf : From rq f a) (hc : CanList a) (hn : f.name.length ≤ 1023) {d : Listed} (hd : Lists f d) :
    ∃ g, build rq (d.args f.userRef) d.name = .ok (some g) ∧ SameFlow f g := by
  have hpr := from_printable hq hf hc
  obtain ⟨ps, p1, p2⟩ : ∃ v, ((d.args f.userRef).protocols = none ∧ v = none ∨ ∃ l c, (d.args f.userRef).protocols = some l ∧ parseProtocol l = some c ∧ v = some c) ∧ v = f.protocols := by
    refine ⟨_, ?_, rfl⟩
    rcases hd.protocols with ⟨x, y⟩ | ⟨c, q, x, y, _, z⟩
    · exact .inl ⟨by simp [Listed.args, y], x⟩
    · rcases hf.built.protocols with ⟨_, w⟩ | ⟨l, c', _, w1, w2⟩
      · rw [x] at w; cases w
      · rw [x] at w2; cases w2
        exact .inr ⟨_, c, by simp [Listed.args, y], protos_again w1 z, x⟩
  have ports : ∀ (o : Option Ports) (dl : Option (List (Nat × Nat))), (∀ p, o = some p → PortsFit p) → Both SamePorts o dl →
      ∃ v : Option Ports, (dl.map portsText = none ∧ v = none ∨ ∃ l c, dl.map portsText = some l ∧ definePorts rq l = .ok (c, true) ∧ v = some c) ∧ ∀ x, portPasses v x = portPasses o x := by
    intro o dl ho hb
    rcases hb with ⟨x, y⟩ | ⟨p, l, x, y, z⟩
    · exact ⟨none, .inl ⟨by simp [y], rfl⟩, by simp [x]⟩
    · obtain ⟨p', k1, k2⟩ := ports_again hq (ho p x) z
      refine ⟨some p', .inr ⟨_, p', by simp [y], k1, rfl⟩, ?_⟩
      intro w
      rw [x]
      exact k2 _
  have nets : ∀ (o : Option (List Cidr)) (dl : Option (List Net)), (∀ cs, o = some cs → 1 ≤ cs.length ∧ cs.length ≤ 32) → Both (Each SameNet) o dl →
      ∃ v : Option (List Cidr), (dl.map (·.map Net.text) = none ∧ v = none ∨ ∃ l c, dl.map (·.map Net.text) = some l ∧ parseCidrs l = .ok (some c) ∧ v = some c) ∧ ∀ x : List UInt8, x.length = 16 → addrPasses v x = addrPasses o x := by
    intro o dl ho hb
    rcases hb with ⟨x, y⟩ | ⟨cs, ns, x, y, z⟩
    · exact ⟨none, .inl ⟨by simp [y], rfl⟩, by simp [x]⟩
    · obtain ⟨w1, w2, w3⟩ := nets_wf z
      obtain ⟨l1, l2⟩ := ho cs x
      obtain ⟨c, k1, k2⟩ := parseCidrs_nets ns ⟨by omega, by omega, w1⟩
      refine ⟨some c, .inr ⟨_, c, by simp [y], k1, rfl⟩, ?_⟩
      intro v hv
      rw [x]
      unfold addrPasses
      rw [Bool.eq_iff_iff, k2 v hv, w3 v hv]
  obtain ⟨dp, d1, d2⟩ := ports f.dports d.dports hpr.dports hd.dports
  obtain ⟨sp, s1, s2⟩ := ports f.sports d.sports hpr.sports hd.sports
  obtain ⟨dn, n1, n2⟩ := nets f.dsts d.dests (fun cs h => by
    rcases hf.built.dsts with ⟨_, w⟩ | ⟨l, c', _, w1, w2⟩
    · rw [h] at w; cases w
    · rw [h] at w2; cases w2; exact (parseCidrs_ok w1).2) hd.dests
  obtain ⟨sn, m1, m2⟩ := nets f.srcs d.srcs (fun cs h => by
    rcases hf.built.srcs with ⟨_, w⟩ | ⟨l, c', _, w1, w2⟩
    · rw [h] at w; cases w
    · rw [h] at w2; cases w2; exact (parseCidrs_ok w1).2) hd.srcs
  have q1 : (d.args f.userRef).mtch = none ∧ f.mtch = none ∨ ∃ l c, (d.args f.userRef).mtch = some l ∧ Match.matchAddAll [] l = .ok (some c) ∧ f.mtch = some c := by
    rcases hd.mtch with ⟨x, y⟩ | ⟨m, es, x, y, z⟩
    · exact .inl ⟨by simp [Listed.args, y], x⟩
    · exact .inr ⟨es.map BM.Expr.text, m, by simp [Listed.args, y], by simpa using match_again z [], x⟩
  have hbuilt : Built rq (d.args f.userRef) ⟨d.name.take 1024, d.priority, f.userRef, ps, dp, sp, dn, sn, f.mtch, d.udpencap⟩ := ⟨p1, d1, s1, n1, m1, q1⟩
  refine ⟨⟨d.name.take 1024, d.priority, f.userRef, ps, dp, sp, dn, sn, f.mtch, d.udpencap⟩, build_of hbuilt rfl rfl rfl rfl, ?_⟩
  refine ⟨?_, hd.priority, rfl, hd.udpencap, ?_⟩
  · show d.name.take 1024 = f.name
    rw [hd.name, List.take_of_length_le (by omega)]
  · intro key ping l3 data hs hdst
    unfold flowMatch
    simp only [p2, d2, s2, n2 _ hdst, m2 _ hs]

/-! ### A whole set again -/

theorem define_ok {rq : (Nat → Nat) → List Nat → List Nat} {fq : List Flow → List Flow} (hq : QSort rq) (hfq : Sorts fq) {set : FlowSet} (hs : SetOK set) {a : Args} {f : Flow} {name : List Char} (hn : a.name = some name)
    (hl : name.length ≤ 1023) (hb : build rq a name = .ok (some f)) (hc : ∀ g ∈ f :: set.flows, 0 ≤ g.priority ∧ g.priority ≤ 2147483647) :
    ∃ set', flowDefine rq fq set a = .ok (set', true) ∧ After set set' f ∧ SetOK set' := by
  rcases build_cases hq a name with ⟨r, e, hr⟩ | ⟨_, e⟩
  · rw [hb] at e
    simp only [Res.ok.injEq] at e
    subst e
    obtain ⟨hf, f1, _, _, _⟩ := hr f rfl
    rw [List.take_of_length_le (by omega)] at f1
    obtain ⟨p1, p2, p3⟩ := putFlow_spec f name set.flows hs.short hs.names
    have hold : freeOld (putFlow f name set.flows).2 = .ok () := by
      cases ho : (putFlow f name set.flows).2 with
      | none => rfl
      | some g => exact flowFree_ok (hs.ok g (p2 g ho).1)
    have hsort : sortFlows fq (putFlow f name set.flows).1 = .ok (fq (putFlow f name set.flows).1) := by
      rcases sort_cases fq (putFlow f name set.flows).1 with h | ⟨hcl, _⟩
      · exact h
      · exfalso
        apply hcl
        have hm : ∀ z ∈ (putFlow f name set.flows).1, 0 ≤ z.priority ∧ z.priority ≤ 2147483647 := by
          intro z hz
          have hz := (p1.mem_iff).1 hz
          simp only [List.mem_cons, List.mem_filter] at hz
          rcases hz with rfl | hz
          · exact hc _ (by simp)
          · exact hc z (by simp [hz.1])
        intro x hx y hy
        have m1 := hm x hx; have m2 := hm y hy
        omega
    rw [← f1] at p1
    obtain ⟨k1, k2⟩ := after_ok hs hf (by rw [f1]; omega) hfq p1
    rw [f1] at k1 k2
    refine ⟨_, ?_, k2, k1⟩
    unfold flowDefine
    simp only [hn]
    rw [if_neg (by omega), hb]
    simp only [Res.ok_bind, Res.pure_eq]
    rw [hold]
    simp only [Res.ok_bind]
    rw [hsort]
    rfl
  · rw [hb] at e; cases e

/-- The definitions for what is listed. -/
def againOps : List Flow → List Listed → List Op
  | f :: fs, d :: ds => .define (d.args f.userRef) :: againOps fs ds
  | _, _ => []

theorem replay {rq : (Nat → Nat) → List Nat → List Nat} (hq : QSort rq) {fq : List Flow → List Flow} (hfq : Sorts fq) {l : List Flow} {ds : List Listed} (h : Each Lists l ds) : ∀ {s : FlowSet}, SetOK s →
    (∀ f ∈ l, ∃ a, From rq f a ∧ CanList a) → (∀ f ∈ l, f.name.length ≤ 1023) → l.Pairwise (fun f g => f.name ≠ g.name) → (∀ f ∈ l, ∀ g ∈ s.flows, g.name ≠ f.name) →
    (∀ g ∈ s.flows, 0 ≤ g.priority ∧ g.priority ≤ 2147483647) →
    ∃ s' gs, run rq fq s (againOps l ds) = .ok s' ∧ SetOK s' ∧ s'.ping = s.ping ∧ Each SameFlow l gs ∧ s'.flows.Perm (gs ++ s.flows) := by
  induction h with
  | nil => intro s hs _ _ _ _ _; exact ⟨s, [], rfl, hs, rfl, .nil, by simp⟩
  | @cons f d l ds hd _ ih =>
    intro s hs hfrom hshort hnames hdis hpr
    obtain ⟨a, ha, hca⟩ := hfrom f (by simp)
    obtain ⟨g, hb, hg⟩ := again_ok hq ha hca (hshort f (by simp)) hd
    have hgp : 0 ≤ g.priority ∧ g.priority ≤ 2147483647 := by rw [hg.priority, ha.priority]; exact hca.priority
    obtain ⟨s1, e1, ⟨k1, k2⟩, k3⟩ := define_ok (rq := rq) hq hfq hs (a := d.args f.userRef) (name := d.name) rfl (by rw [hd.name]; exact hshort f (by simp)) hb (by
      intro x hx
      rcases List.mem_cons.1 hx with rfl | hx
      · exact hgp
      · exact hpr x hx)
    rw [filter_all (fun x hx => by rw [hg.name]; exact hdis f (by simp) x hx)] at k2
    rw [List.pairwise_cons] at hnames
    obtain ⟨s', gs, r1, r2, r3, r4, r5⟩ := ih k3 (fun x hx => hfrom x (by simp [hx])) (fun x hx => hshort x (by simp [hx])) hnames.2 (by
      intro x hx y hy
      have hy := (k2.mem_iff).1 hy
      rcases List.mem_cons.1 hy with rfl | hy
      · rw [hg.name]; exact hnames.1 x hx
      · exact hdis x (by simp [hx]) y hy) (by
      intro y hy
      have hy := (k2.mem_iff).1 hy
      rcases List.mem_cons.1 hy with rfl | hy
      · exact hgp
      · exact hpr y hy)
    refine ⟨s', g :: gs, ?_, r2, by rw [r3, k1], .cons hg r4, ?_⟩
    · simp only [againOps, run, step]
      rw [e1]
      exact r1
    · refine r5.trans ((List.Perm.append_left gs k2).trans ?_)
      exact List.perm_middle

theorem each_mem {α β : Type} {R : α → β → Prop} {l : List α} {m : List β} (h : Each R l m) : ∀ b ∈ m, ∃ a ∈ l, R a b := by
  induction h with
  | nil => simp
  | cons h _ ih =>
    intro b hb
    rcases List.mem_cons.1 hb with rfl | hb
    · exact ⟨_, by simp, h⟩
    · obtain ⟨a, h1, h2⟩ := ih b hb
      exact ⟨a, by simp [h1], h2⟩

theorem each_pairwise {α β : Type} {R : α → β → Prop} {P : α → α → Prop} {Q : β → β → Prop} (hr : ∀ a b a' b', R a b → R a' b' → P a a' → Q b b') {l : List α} {m : List β} (h : Each R l m) (hp : l.Pairwise P) : m.Pairwise Q := by
  induction h with
  | nil => exact .nil
  | cons h hm ih =>
    rw [List.pairwise_cons] at hp ⊢
    refine ⟨?_, ih hp.2⟩
    intro b hb
    obtain ⟨a, h1, h2⟩ := each_mem hm b hb
    exact hr _ _ _ _ h h2 (hp.1 a h1)

theorem lookup_same {key : Key} (hs : key.src.length = 16) (hd : key.dst.length = 16) (ping : Bool) (l3 : Nat) (data : Packet) {l m : List Flow} (h : Each SameFlow l m) : ∀ u, lookupLoop key ping l3 data m u = lookupLoop key ping l3 data l u := by
  induction h with
  | nil => intro u; rfl
  | cons h _ ih =>
    intro u
    unfold lookupLoop
    rw [h.matches_ key ping l3 data hs hd, h.udpencap, h.target]
    simp only [ih]

end Nfqlb.Flow
