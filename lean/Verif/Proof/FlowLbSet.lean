import Verif.Proof.FlowLbHist

/-! What `cmd_set` has done when it answers OK; and encapsulated SCTP. -/

set_option autoImplicit false

namespace Nfqlb.FlowLb

open Nfqlb Nfqlb.Spec Nfqlb.Spec.FL Nfqlb.Spec.FLB Nfqlb.Spec.RS Nfqlb.Flow

theorem set_done {rq : (Nat → Nat) → List Nat → List Nat} (hq : QSort rq) {fq : List Flow.Flow → List Flow.Flow} (hfq : Sorts fq) {s : Sys} (hi : Inv s) {env : Env} {c : Cmd} (hc : Named c) {st : St}
    (h : cmdSet rq fq env s.st c = .ok (st, .ok)) :
    ∃ f ∈ st.fset.flows, some f.name = c.name ∧ f.priority = c.priority ∧ f.udpencap = c.udpencap ∧ f.userRef ≠ 0 ∧ Built rq (flowArgs c f.userRef) f ∧
      (∃ l, st.heap f.userRef = some l ∧ some l.target = c.target) ∧
      (c.udpencap ≠ 0 → ∃ g ∈ st.fset.flows, g.name = '#' :: f.name ∧ g.priority = c.priority ∧ g.udpencap = c.udpencap ∧ g.userRef = 0 ∧ Built rq (udpArgs c g.name) g) := by
  obtain ⟨n, t, hn, ht, hh, hl, hu⟩ := hc
  obtain ⟨st1, r1, e1, hfs, htar, hr⟩ := setLb_spec hi env hn ht hh
  unfold cmdSet at h
  rw [e1] at h
  simp only [Res.ok_bind, Res.pure_eq] at h
  have hset : SetOK st1.fset := by rw [hfs]; exact hi.flowset
  have hfl : ∀ f ∈ st1.fset.flows, Facts f := by rw [hfs]; exact hi.flows
  cases r1 with
  | inl reply =>
    exfalso
    rcases hr with ⟨rep, hrep, hr, hb⟩ | ⟨_, _, _, _, hr, _⟩ | ⟨_, _, _, _, _, _, _, hr, _⟩ | ⟨_, _, _, hr, _⟩
    · cases hr
      cases h
      rcases hrep with h | h | h <;> cases h
    · cases hr
    · cases hr
    · cases hr
  | inr lb =>
    dsimp only at h
    obtain ⟨l, hl1, hl2⟩ := htar lb rfl
    have hlb : lb ≠ 0 := by
      rcases hr with ⟨_, _, hr, _⟩ | ⟨g, _, _, h0, hr, _⟩ | ⟨_, _, _, _, _, q, h0, hr, _⟩ | ⟨_, q, h0, hr, _⟩ <;> cases hr <;> exact h0
    -- the helper
    have hudp : ∀ (st2 : St) (r2 : Option Reply), setUdp rq fq st1 c = .ok (st2, r2) → st2.heap = st1.heap ∧ SetOK st2.fset ∧ (r2 = none ∨ r2 = some .sctp ∨ r2 = some .define) ∧ (r2 = none → c.udpencap ≠ 0 →
        ∃ g ∈ st2.fset.flows, g.name = '#' :: n ∧ g.priority = c.priority ∧ g.udpencap = c.udpencap ∧ g.userRef = 0 ∧ Built rq (udpArgs c g.name) g) := by
      intro st2 r2 h2
      unfold setUdp at h2
      by_cases h0 : c.udpencap = 0
      · rw [if_pos h0] at h2
        cases h2
        exact ⟨rfl, hset, .inl rfl, fun _ h => absurd h0 h⟩
      · rw [if_neg h0] at h2
        by_cases h1 : sctpOnly c.protocols = false
        · rw [if_pos h1] at h2
          cases h2
          exact ⟨rfl, hset, .inr (.inl rfl), fun h => by cases h⟩
        · rw [if_neg h1, hn] at h2
          unfold udpName at h2
          dsimp only at h2
          rw [if_neg (by omega)] at h2
          simp only [Res.ok_bind, Res.pure_eq] at h2
          rcases define_cases hq hfq hset (udpArgs c ('#' :: n)) with e | ⟨s', f, nm, e, e1, e2, e3, e4, e5, e6, e7, k1, k2⟩ | ⟨e, hno⟩
          · rw [e] at h2
            cases h2
            exact ⟨rfl, hset, .inr (.inr rfl), fun h => by cases h⟩
          · rw [e] at h2
            cases h2
            have : nm = '#' :: n := by
              have : (some ('#' :: n) : Option (List Char)) = some nm := e1
              cases this; rfl
            subst this
            refine ⟨rfl, k2, .inl rfl, fun _ _ => ⟨f, (k1.2.mem_iff).2 (by simp), e4, e5, e7, e6, ?_⟩⟩
            rw [e4]
            exact build_fields e2
          · rw [e] at h2; cases h2
    cases h2 : setUdp rq fq st1 c with
    | ok x =>
      obtain ⟨st2, r2⟩ := x
      rw [h2] at h
      simp only [Res.ok_bind] at h
      obtain ⟨k0, k1, k2, k3⟩ := hudp st2 r2 h2
      cases r2 with
      | some rep =>
        cases h
        rcases k2 with k2 | k2 | k2 <;> cases k2
      | none =>
        dsimp only at h
        unfold setFlow at h
        rcases define_cases hq hfq k1 (flowArgs c lb) with e | ⟨s', f, nm, e, f1, f2, f3, f4, f5, f6, f7, a1, a2⟩ | ⟨e, hno⟩
        · rw [e] at h
          cases h
        · rw [e] at h
          cases h
          have : nm = n := by
            have h : c.name = some nm := f1
            rw [hn] at h; cases h; rfl
          subst this
          have hu : f.userRef = lb := f6
          refine ⟨f, (a1.2.mem_iff).2 (by simp), by rw [f4, hn], f5, f7, by rw [hu]; exact hlb, by rw [hu]; exact build_fields f2, ⟨l, by rw [hu]; dsimp only; rw [k0]; exact hl1, by rw [hl2, ht]⟩, ?_⟩
          intro h0
          obtain ⟨g, g1, g2, g3⟩ := k3 rfl h0
          refine ⟨g, ?_, by rw [g2, f4], g3⟩
          have hne : g.name ≠ f.name := by
            rw [g2, f4]
            intro hc
            have := congrArg List.length hc
            simp at this
          exact (a1.2.mem_iff).2 (by simp [g1, hne])
        · rw [e] at h; cases h
    | die => rw [h2] at h; cases h
    | ub => rw [h2] at h; cases h
    | hang => rw [h2] at h; cases h

/-! ### Encapsulated SCTP -/

/-- `*udpencap` is that of some flow that matches, if there is one. -/
theorem lookup_last {key : Key} {ping : Bool} {l3 : Nat} {data : Packet} : ∀ (l : List Flow.Flow) {u v : Nat}, lookupLoop key ping l3 data l u = .ok (0, v) →
    ((v = u ∧ ∀ f ∈ l, flowMatch key f ping l3 data ≠ .ok .yes) ∨ ∃ f ∈ l, flowMatch key f ping l3 data = .ok .yes ∧ v = f.udpencap)
  | [], u, v, h => by cases h; exact .inl ⟨rfl, by simp⟩
  | f :: l, u, v, h => by
    simp only [lookupLoop] at h
    cases hm : flowMatch key f ping l3 data with
    | ok w =>
      rw [hm] at h
      simp only [Res.ok_bind, Res.pure_eq] at h
      by_cases hc : w ≠ .no ∧ f.userRef ≠ 0
      · rw [if_pos hc] at h
        simp only [Res.ok.injEq, Prod.mk.injEq] at h
        exact absurd h.1 hc.2
      · rw [if_neg hc] at h
        rcases lookup_last l h with ⟨h1, h2⟩ | ⟨g, hg, h1, h2⟩
        · by_cases hw : w = .yes
          · subst hw
            exact .inr ⟨f, by simp, hm, by rw [h1, if_pos rfl]⟩
          · rw [if_neg hw] at h1
            refine .inl ⟨h1, ?_⟩
            intro g hg
            simp only [List.mem_cons] at hg
            rcases hg with rfl | hg
            · rw [hm]; intro hx; cases hx; exact hw rfl
            · exact h2 g hg
        · exact .inr ⟨g, by simp [hg], h1, h2⟩
    | die => rw [hm] at h; cases h
    | ub => rw [hm] at h; cases h
    | hang => rw [hm] at h; cases h

/-- The helper matches UDP to its port. -/
theorem helper_yes {f : Flow.Flow} (hf : Helper f) {key : Key} (hk : protoNum key = 17) (hd : ntohs key.dport = f.udpencap) (h1 : addrPasses f.dsts key.dst = true) (h2 : addrPasses f.srcs key.src = true)
    (ping : Bool) (l3 : Nat) (data : Packet) : flowMatch key f ping l3 data = .ok .yes := by
  unfold flowMatch
  rw [h1, h2, hf.protocols, hf.sports, hf.mtch, hf.dports]
  simp only [Bool.true_eq_false, if_false, hk, hd, protoPasses, portPasses, matchPasses]
  simp

theorem helper_port {f : Flow.Flow} (hf : Helper f) {key : Key} {ping : Bool} {l3 : Nat} {data : Packet} (hk : protoNum key = 17) (h : flowMatch key f ping l3 data = .ok .yes) : f.udpencap = ntohs key.dport := by
  unfold flowMatch at h
  split at h
  · cases h
  split at h
  · cases h
  split at h
  · rename_i hx; omega
  split at h
  · cases h
  rw [hf.dports] at h
  simp only [Res.ok_bind] at h
  by_cases hp : ntohs key.dport = f.udpencap
  · exact hp.symm
  · rw [if_neg (by simpa using hp)] at h
    cases h

/-- A packet with encapsulated SCTP that no flow with target matches as UDP. -/
theorem encap_lookup {s : Sys} (hi : Inv s) {conf : Conf} {proto : Nat} {data : Packet} {p q : Parsed} (hp : getHashKey 0 proto data = .ok p) (h0 : 0 ≤ p.rc) (h4 : p.rc % 4 = 0)
    (hk : protoNum p.key = 17) (hq : getHashKey (ntohs p.key.dport) proto data = .ok q) (hq0 : 0 ≤ q.rc)
    (hh : ∃ h ∈ s.st.fset.flows, h.userRef = 0 ∧ h.udpencap = ntohs p.key.dport ∧ addrPasses h.dsts p.key.dst = true ∧ addrPasses h.srcs p.key.src = true)
    (hno : ∀ f ∈ s.st.fset.flows, f.userRef ≠ 0 → flowMatch p.key f s.st.fset.ping proto data = .ok .no)
    {st : St} {r : Pkt} (h : pktBegin conf s.st proto data = .ok (st, r)) :
    (r = .done (.verdict conf.nolb) ∧ ∀ f ∈ s.st.fset.flows, f.userRef ≠ 0 → flowMatch q.key f s.st.fset.ping proto data = .ok .no) ∨
    ∃ f ∈ s.st.fset.flows, f.userRef ≠ 0 ∧ (flowMatch q.key f s.st.fset.ping proto data = .ok .ping ∨ flowMatch q.key f s.st.fset.ping proto data = .ok .yes) ∧
      (∀ g ∈ s.st.fset.flows, g.userRef ≠ 0 → f.priority < g.priority → flowMatch q.key g s.st.fset.ping proto data = .ok .no) ∧ r = .has f.userRef q := by
  unfold pktBegin at h
  rw [hp] at h
  simp only [Res.ok_bind, Res.pure_eq] at h
  rw [if_neg (by omega), if_neg (by omega)] at h
  simp only [h4, ne_eq, not_true_eq_false, false_and, if_false] at h
  unfold pktLookup at h
  cases h1 : flowLookup s.st.fset p.key proto data 0 with
  | ok tv =>
    obtain ⟨t, v⟩ := tv
    have ht : t = 0 := by
      rcases lookup_spec _ hi.flowset.sorted h1 with ⟨h2, _⟩ | ⟨h2, f, hf, h3, h4, _⟩
      · exact h2
      · have := hno f hf (by omega)
        rw [this] at h4
        rcases h4 with h4 | ⟨h4, _⟩ <;> cases h4
    subst ht
    have hv : v = ntohs p.key.dport := by
      obtain ⟨x, hx, hx0, hxe, hx1, hx2⟩ := hh
      have hyes := helper_yes ((hi.flows x hx).helper hx0) hk hxe.symm hx1 hx2 s.st.fset.ping proto data
      rcases lookup_last _ h1 with ⟨_, h2⟩ | ⟨f, hf, h2, h3⟩
      · exact absurd hyes (h2 x hx)
      · have hf0 : f.userRef = 0 := by
          apply Classical.byContradiction
          intro hne
          rw [hno f hf hne] at h2
          cases h2
        rw [h3, helper_port ((hi.flows f hf).helper hf0) hk h2]
    subst hv
    rcases lookup_ok hi h1 with ⟨_, e⟩ | ⟨ht, _⟩
    · rw [e] at h
      simp only [Res.ok_bind] at h
      rw [if_pos (by unfold isEncap; simp [hk]), hq] at h
      simp only [Res.ok_bind, Res.pure_eq] at h
      rw [if_neg (by omega)] at h
      cases h3 : flowLookup s.st.fset q.key proto data 0 with
      | ok tv =>
        obtain ⟨t2, v2⟩ := tv
        have hsp := lookup_spec _ hi.flowset.sorted h3
        rcases lookup_ok hi h3 with ⟨ht2, e⟩ | ⟨ht2, st1, e, _⟩
        · rw [e] at h
          simp only [Res.ok_bind, if_true] at h
          cases h
          rcases hsp with ⟨_, h5⟩ | ⟨h5, _⟩
          · exact .inl ⟨rfl, h5⟩
          · exact absurd ht2 h5
        · rw [e] at h
          simp only [Res.ok_bind] at h
          rw [if_neg ht2] at h
          cases h
          rcases hsp with ⟨h5, _⟩ | ⟨_, f, hf, h6, h7, h8⟩
          · exact absurd h5 ht2
          · refine .inr ⟨f, hf, by omega, ?_, h8, by rw [h6]⟩
            rcases h7 with h7 | ⟨h7, _⟩
            · exact .inl h7
            · exact .inr h7
      | die => unfold lookup at h; rw [h3] at h; cases h
      | ub => unfold lookup at h; rw [h3] at h; cases h
      | hang => unfold lookup at h; rw [h3] at h; cases h
    · exact absurd rfl ht
  | die => unfold lookup at h; rw [h1] at h; cases h
  | ub => unfold lookup at h; rw [h1] at h; cases h
  | hang => unfold lookup at h; rw [h1] at h; cases h

end Nfqlb.FlowLb
