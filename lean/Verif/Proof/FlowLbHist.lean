import Verif.Proof.FlowLbInv

/-! The invariant holds in every history. -/

set_option autoImplicit false

namespace Nfqlb.FlowLb

open Nfqlb Nfqlb.Spec Nfqlb.Spec.FL Nfqlb.Spec.FLB Nfqlb.Spec.RS Nfqlb.Flow

theorem delete_inv {s : Sys} (hi : Inv s) (name : Option (List Char)) : ∃ st r, cmdDelete s.st name = .ok (st, r) ∧ Inv ⟨st, s.held⟩ ∧ ∀ f ∈ st.fset.flows, f ∈ s.st.fset.flows := by
  cases name with
  | none => exact ⟨s.st, .name, rfl, hi, fun _ h => h⟩
  | some n =>
    simp only [cmdDelete, Res.pure_eq]
    rcases delete_spec hi.flowset n with ⟨e, _⟩ | ⟨f, hf, hfn, e, hok⟩
    · rw [e]
      simp only [Res.ok_bind]
      unfold release
      rw [if_pos rfl]
      exact ⟨_, _, rfl, hi, fun _ h => h⟩
    · rw [e]
      simp only [Res.ok_bind]
      -- the state after the first part
      have hmid : ∃ st1, release { s.st with fset := ⟨s.st.fset.flows.filter (fun g => g.name ≠ n), s.st.fset.ping⟩ } f.userRef = .ok st1 ∧ st1.fset = ⟨s.st.fset.flows.filter (fun g => g.name ≠ n), s.st.fset.ping⟩ ∧
          Inv ⟨st1, s.held⟩ := by
        have hb := hi.bal.fset ⟨s.st.fset.flows.filter (fun g => g.name ≠ n), s.st.fset.ping⟩
        have hfl : ∀ g ∈ s.st.fset.flows.filter (fun g => g.name ≠ n), Facts g := fun g hg => hi.flows g (List.mem_filter.1 hg).1
        by_cases h0 : f.userRef = 0
        · rw [h0]
          unfold release
          rw [if_pos rfl]
          refine ⟨_, rfl, rfl, hb.congr ?_, hok, hfl, hi.held⟩
          intro p hp
          have := delete_count hi.flowset hf (fun f => f.userRef == p)
          rw [hfn, one_eq, h0, if_neg hp] at this
          rw [refs_flows]
          unfold refs
          dsimp only at this ⊢
          omega
        · obtain ⟨st1, e1, e2, e3, _⟩ := release_ok hb (flow_refs hf) h0
          refine ⟨st1, e1, e2, e3.congr ?_, by rw [e2]; exact hok, by rw [e2]; exact hfl, hi.held⟩
          intro p hp
          have := delete_count hi.flowset hf (fun f => f.userRef == p)
          rw [hfn, one_eq] at this
          rw [refs_flows, e2]
          unfold dec refs
          dsimp only at this ⊢
          by_cases hpe : p = f.userRef
          · rw [if_pos hpe] at this ⊢; omega
          · rw [if_neg hpe] at this ⊢; omega
      obtain ⟨st1, e1, e2, hi1⟩ := hmid
      rw [e1]
      simp only [Res.ok_bind]
      have hsub1 : ∀ g ∈ st1.fset.flows, g ∈ s.st.fset.flows := by rw [e2]; intro g hg; exact (List.mem_filter.1 hg).1
      by_cases he : f.udpencap > 0
      · rw [if_pos he]
        have hl := (hi.flows f hf).len
        rw [hfn] at hl
        unfold udpName
        dsimp only
        rw [if_neg (by omega)]
        simp only [Res.ok_bind]
        rcases delete_spec hi1.flowset ('#' :: n) with ⟨e, _⟩ | ⟨g, hg, hgn, e, hok2⟩
        · have e : flowDelete st1.fset ('#' :: n) = .ok (st1.fset, 0, none) := e
          rw [e]
          exact ⟨_, _, rfl, hi1, hsub1⟩
        · have e : flowDelete st1.fset ('#' :: n) = .ok (⟨st1.fset.flows.filter (fun f => f.name ≠ '#' :: n), st1.fset.ping⟩, g.userRef, some g.udpencap) := e
          rw [e]
          refine ⟨_, _, rfl, ⟨(hi1.bal.fset _).congr ?_, hok2, fun x hx => hi1.flows x (List.mem_filter.1 hx).1, hi1.held⟩, fun x hx => hsub1 x (List.mem_filter.1 hx).1⟩
          intro p hp
          have hg0 : g.userRef = 0 := ((hi1.flows g hg).hash).2 (by rw [hgn]; rfl)
          have := delete_count hi1.flowset hg (fun f => f.userRef == p)
          rw [hgn, one_eq, hg0, if_neg hp] at this
          rw [refs_flows]
          unfold refs
          dsimp only at this ⊢
          omega
      · rw [if_neg he]
        exact ⟨_, _, rfl, hi1, hsub1⟩

/-! ### Packets -/

theorem yes_proto {key : Key} {f : Flow.Flow} {ping : Bool} {l3 : Nat} {data : Packet} (h : flowMatch key f ping l3 data = .ok .yes) : protoPasses f.protocols key = true := by
  unfold flowMatch at h
  split at h
  · cases h
  split at h
  · cases h
  split at h
  · cases h
  split at h
  · cases h
  · rename_i hx; simpa using hx

theorem ping_proto {key : Key} {f : Flow.Flow} {ping : Bool} {l3 : Nat} {data : Packet} (h : flowMatch key f ping l3 data = .ok .ping) : protoNum key = 1 ∨ protoNum key = 58 := by
  unfold flowMatch at h
  split at h
  · cases h
  split at h
  · cases h
  split at h
  · rename_i hx; exact hx.2.1
  split at h
  · cases h
  · cases h1 : portPasses f.dports key.dport with
    | ok b =>
      rw [h1] at h
      cases b with
      | false => cases h
      | true =>
        simp only [Res.ok_bind, if_true] at h
        cases h2 : portPasses f.sports key.sport with
        | ok b =>
          rw [h2] at h
          cases b with
          | false => cases h
          | true =>
            simp only [Res.ok_bind, if_true] at h
            cases h3 : matchPasses f.mtch l3 key data with
            | ok b => rw [h3] at h; cases b <;> cases h
            | die => rw [h3] at h; cases h
            | ub => rw [h3] at h; cases h
            | hang => rw [h3] at h; cases h
        | die => rw [h2] at h; cases h
        | ub => rw [h2] at h; cases h
        | hang => rw [h2] at h; cases h
    | die => rw [h1] at h; cases h
    | ub => rw [h1] at h; cases h
    | hang => rw [h1] at h; cases h

/-- `*udpencap` for a UDP key, when a load-balancer was found. -/
theorem lookup_udp {s : Sys} (hi : Inv s) {key : Key} {l3 : Nat} {data : Packet} {u t v : Nat} (h : flowLookup s.st.fset key l3 data u = .ok (t, v)) (ht : t ≠ 0) (hk : protoNum key = 17) : v = 0 := by
  unfold flowLookup at h
  rcases lookup_spec _ hi.flowset.sorted h with ⟨h1, _⟩ | ⟨_, f, hf, h1, h2, _⟩
  · exact absurd h1 ht
  · rcases h2 with h2 | ⟨h2, h3⟩
    · have := ping_proto h2; omega
    · by_cases h0 : f.udpencap = 0
      · omega
      · have := (hi.flows f hf).encap (by omega) h0
        have hp := yes_proto h2
        rw [this] at hp
        simp only [protoPasses, List.any_cons, List.any_nil, Bool.or_false, decide_eq_true_eq] at hp
        omega

/-- A lookup locks what it returns. -/
theorem lookup_ok {s : Sys} (hi : Inv s) {key : Key} {l3 : Nat} {data : Packet} {u t v : Nat} (h : flowLookup s.st.fset key l3 data u = .ok (t, v)) :
    (t = 0 ∧ lookup s.st key l3 data u = .ok (s.st, 0, v)) ∨ (t ≠ 0 ∧ ∃ st', lookup s.st key l3 data u = .ok (st', t, v) ∧ st'.fset = s.st.fset ∧ Bal st' (inc (refs s) t)) := by
  unfold lookup
  rw [h]
  simp only [Res.ok_bind, Res.pure_eq]
  by_cases ht : t = 0
  · rw [if_pos ht]; exact .inl ⟨ht, rfl⟩
  · rw [if_neg ht]
    rcases lookup_spec _ hi.flowset.sorted h with ⟨h1, _⟩ | ⟨_, f, hf, h1, _⟩
    · exact absurd h1 ht
    · have hr := flow_refs hf
      rw [h1] at hr
      obtain ⟨st', e1, e2, e3, _⟩ := lock_ok hi.bal hr ht
      rw [e1]
      exact .inr ⟨ht, st', rfl, e2, e3⟩

theorem pktLookup_inv {s : Sys} (hi : Inv s) {conf : Conf} {proto : Nat} {data : Packet} {p : Parsed} (hp : ¬ (p.key.proto = (17, 0) ∧ p.key.dport = (0, 0))) {st : St} {r : Pkt}
    (h : pktLookup conf s.st proto data p = .ok (st, r)) :
    st.fset = s.st.fset ∧ ((∃ a, r = .done a ∧ Inv ⟨st, s.held⟩) ∨ ∃ lb q, r = .has lb q ∧ Inv ⟨st, (lb, q) :: s.held⟩) := by
  have hhas : ∀ (st' : St) (t : Nat) (q : Parsed), st'.fset = s.st.fset → Bal st' (inc (refs s) t) → t ≠ 0 → Inv ⟨st', (t, q) :: s.held⟩ := by
    intro st' t q h1 h2 h3
    refine ⟨h2.congr ?_, by rw [h1]; exact hi.flowset, by rw [h1]; exact hi.flows, ?_⟩
    · intro p hp
      rw [refs_flows, h1, List.countP_cons]
      unfold inc refs
      by_cases h : p = t
      · subst h; simp; omega
      · rw [if_neg h, if_neg (by simp; exact fun h2 => h h2.symm)]; omega
    · intro x hx
      simp only [List.mem_cons] at hx
      rcases hx with rfl | hx
      · exact h3
      · exact hi.held x hx
  unfold pktLookup at h
  cases h1 : flowLookup s.st.fset p.key proto data 0 with
  | ok tv =>
    obtain ⟨t, v⟩ := tv
    rcases lookup_ok hi h1 with ⟨ht, e⟩ | ⟨ht, st1, e, e2, e3⟩
    · rw [e] at h
      simp only [Res.ok_bind, Res.pure_eq] at h
      by_cases hen : isEncap p.key v = true
      · rw [if_pos hen] at h
        cases h2 : getHashKey v proto data with
        | ok p2 =>
          rw [h2] at h
          simp only [Res.ok_bind] at h
          by_cases hrc : p2.rc < 0
          · rw [if_pos hrc] at h
            cases h
            exact ⟨rfl, .inl ⟨_, rfl, hi⟩⟩
          · rw [if_neg hrc] at h
            cases h3 : flowLookup s.st.fset p2.key proto data 0 with
            | ok tv =>
              obtain ⟨t2, v2⟩ := tv
              rcases lookup_ok hi h3 with ⟨ht2, e⟩ | ⟨ht2, st1, e, e2, e3⟩
              · rw [e] at h
                simp only [Res.ok_bind, if_true] at h
                cases h
                exact ⟨rfl, .inl ⟨_, rfl, hi⟩⟩
              · rw [e] at h
                simp only [Res.ok_bind] at h
                rw [if_neg ht2] at h
                cases h
                exact ⟨e2, .inr ⟨t2, p2, rfl, hhas _ _ _ e2 e3 ht2⟩⟩
            | die => unfold lookup at h; rw [h3] at h; cases h
            | ub => unfold lookup at h; rw [h3] at h; cases h
            | hang => unfold lookup at h; rw [h3] at h; cases h
        | die => rw [h2] at h; cases h
        | ub => rw [h2] at h; cases h
        | hang => rw [h2] at h; cases h
      · rw [if_neg hen] at h
        simp only [if_true] at h
        cases h
        exact ⟨rfl, .inl ⟨_, rfl, hi⟩⟩
    · rw [e] at h
      simp only [Res.ok_bind, Res.pure_eq] at h
      have hen : ¬ isEncap p.key v = true := by
        unfold isEncap
        rw [decide_eq_true_eq]
        rintro ⟨k1, k2⟩
        have := lookup_udp hi h1 ht k1
        rw [this, ntohs_port] at k2
        apply hp
        refine ⟨(protoNum_iff p.key 17).1 (by rw [k1]; rfl), ?_⟩
        unfold port at k2
        generalize p.key.dport = d at k2 ⊢
        obtain ⟨a, b⟩ := d
        dsimp only at k2
        have ha : a.toNat = 0 := by omega
        have hb : b.toNat = 0 := by omega
        rw [Prod.mk.injEq]
        exact ⟨UInt8.toNat_inj.1 ha, UInt8.toNat_inj.1 hb⟩
      rw [if_neg hen, if_neg ht] at h
      cases h
      exact ⟨e2, .inr ⟨t, p, rfl, hhas _ _ _ e2 e3 ht⟩⟩
  | die => unfold lookup at h; rw [h1] at h; cases h
  | ub => unfold lookup at h; rw [h1] at h; cases h
  | hang => unfold lookup at h; rw [h1] at h; cases h

theorem pktBegin_inv {s : Sys} (hi : Inv s) {conf : Conf} {proto : Nat} {data : Packet} (hp : ¬ UdpPort0 proto data) {st : St} {r : Pkt}
    (h : pktBegin conf s.st proto data = .ok (st, r)) :
    st.fset = s.st.fset ∧ ((∃ a, r = .done a ∧ Inv ⟨st, s.held⟩) ∨ ∃ lb q, r = .has lb q ∧ Inv ⟨st, (lb, q) :: s.held⟩) := by
  unfold pktBegin at h
  cases h1 : getHashKey 0 proto data with
  | ok p =>
    rw [h1] at h
    simp only [Res.ok_bind, Res.pure_eq] at h
    by_cases hrc : p.rc < 0
    · rw [if_pos hrc] at h
      cases h
      exact ⟨rfl, .inl ⟨_, rfl, hi⟩⟩
    · rw [if_neg hrc] at h
      have hend : (if p.rc % 4 ≠ 0 ∧ p.rc % 2 = 0 then Res.ok (s.st, Pkt.done (LbAction.later p.key)) else pktLookup conf s.st proto data p) = .ok (st, r) →
          st.fset = s.st.fset ∧ ((∃ a, r = .done a ∧ Inv ⟨st, s.held⟩) ∨ ∃ lb q, r = .has lb q ∧ Inv ⟨st, (lb, q) :: s.held⟩) := by
        intro h
        by_cases hl : p.rc % 4 ≠ 0 ∧ p.rc % 2 = 0
        · rw [if_pos hl] at h
          cases h
          exact ⟨rfl, .inl ⟨_, rfl, hi⟩⟩
        · rw [if_neg hl] at h
          exact pktLookup_inv hi (fun h => hp ⟨p, h1, h⟩) h
      by_cases h4 : p.rc % 4 ≠ 0
      · rw [if_pos h4] at h
        cases ht : tierRedirect conf.tier p.key with
        | ok o =>
          rw [ht] at h
          cases o with
          | some fw =>
            cases h
            exact ⟨rfl, .inl ⟨_, rfl, hi⟩⟩
          | none => exact hend h
        | die => rw [ht] at h; cases h
        | ub => rw [ht] at h; cases h
        | hang => rw [ht] at h; cases h
      · rw [if_neg h4] at h
        exact hend h
  | die => rw [h1] at h; cases h
  | ub => rw [h1] at h; cases h
  | hang => rw [h1] at h; cases h

theorem eraseIdx_count {α : Type} (q : α → Bool) : ∀ (l : List α) (i : Nat) (x : α), l[i]? = some x → (l.eraseIdx i).countP q + (if q x = true then 1 else 0) = l.countP q
  | [], i, x, h => by simp at h
  | a :: l, 0, x, h => by simp at h; subst h; simp [List.countP_cons]
  | a :: l, i + 1, x, h => by
    simp only [List.getElem?_cons_succ] at h
    have := eraseIdx_count q l i x h
    rw [List.eraseIdx_cons_succ, List.countP_cons, List.countP_cons]
    omega

theorem held_refs {s : Sys} {h : Nat × Parsed} (hh : h ∈ s.held) : 0 < refs s h.1 := by
  unfold refs
  have : 0 < s.held.countP (fun g => g.1 == h.1) := List.countP_pos_iff.2 ⟨h, hh, by simp⟩
  omega

/-- A packet that holds a load-balancer can go on as soon as the load-balancer has a target for it. -/
theorem pktEnd_inv {s : Sys} (hi : Inv s) {i lb : Nat} {p : Parsed} (hh : s.held[i]? = some (lb, p)) :
    ∃ l st, s.st.heap lb = some l ∧ release s.st lb = .ok st ∧ st.fset = s.st.fset ∧ Inv ⟨st, s.held.eraseIdx i⟩ := by
  have hm := List.mem_of_getElem? hh
  have h0 := hi.held _ hm
  have hr := held_refs hm
  dsimp only at h0 hr
  cases hl : s.st.heap lb with
  | none => have := hi.bal.dead _ h0 hl; omega
  | some l =>
    obtain ⟨st, e1, e2, e3, _⟩ := release_ok hi.bal hr h0
    refine ⟨l, st, rfl, e1, e2, e3.congr ?_, by rw [e2]; exact hi.flowset, by rw [e2]; exact hi.flows, fun x hx => hi.held x (List.mem_of_mem_eraseIdx hx)⟩
    intro q hq
    have := eraseIdx_count (fun h => h.1 == q) s.held i (lb, p) hh
    rw [refs_flows, e2]
    unfold dec refs
    by_cases hql : q = lb
    · subst hql
      simp only [beq_self_eq_true, if_true] at this ⊢
      omega
    · rw [if_neg hql]
      dsimp only at this
      rw [if_neg (by simp; exact fun h => hql h.symm)] at this
      omega

theorem finish_inv {s s' : Sys} (hi : Inv s) {rq : (Nat → Nat) → List Nat → List Nat} {fq : List Flow.Flow → List Flow.Flow} {conf : Conf} {env : Env} {i : Nat}
    (h : step rq fq conf s (.finish env i) = .ok s') : Inv s' ∧ s'.st.fset = s.st.fset := by
  simp only [step] at h
  cases hh : s.held[i]? with
  | none => rw [hh] at h; cases h; exact ⟨hi, rfl⟩
  | some x =>
    obtain ⟨lb, p⟩ := x
    rw [hh] at h
    dsimp only at h
    obtain ⟨l, st, h1, h2, h3, h4⟩ := pktEnd_inv hi hh
    unfold pktEnd at h
    rw [h1] at h
    dsimp only at h
    cases ht : Maglev.target (env.mag l.seg) (hashKey p.key conf.hashMode) with
    | ok fw =>
      rw [ht] at h
      simp only [Res.ok_bind, Res.pure_eq] at h
      rw [h2] at h
      simp only [Res.ok_bind] at h
      by_cases hfw : fw < 0
      · rw [if_pos hfw] at h
        cases h
        exact ⟨h4, h3⟩
      · rw [if_neg hfw] at h
        by_cases hrc : p.rc % 2 = 1
        · rw [if_pos hrc] at h
          cases hw : withFragid p with
          | ok k => rw [hw] at h; cases h; exact ⟨h4, h3⟩
          | die => rw [hw] at h; cases h
          | ub => rw [hw] at h; cases h
          | hang => rw [hw] at h; cases h
        · rw [if_neg hrc] at h
          cases h
          exact ⟨h4, h3⟩
    | die => rw [ht] at h; cases h
    | ub => rw [ht] at h; cases h
    | hang => rw [ht] at h; cases h

theorem arrive_inv {s s' : Sys} (hi : Inv s) {rq : (Nat → Nat) → List Nat → List Nat} {fq : List Flow.Flow → List Flow.Flow} {conf : Conf} {proto : Nat} {data : Packet} (hp : ¬ UdpPort0 proto data)
    (h : step rq fq conf s (.arrive proto data) = .ok s') : Inv s' ∧ s'.st.fset = s.st.fset := by
  simp only [step] at h
  cases hb : pktBegin conf s.st proto data with
  | ok x =>
    obtain ⟨st, r⟩ := x
    rw [hb] at h
    obtain ⟨h1, h2⟩ := pktBegin_inv hi hp hb
    rcases h2 with ⟨a, rfl, h2⟩ | ⟨lb, q, rfl, h2⟩
    · cases h; exact ⟨h2, h1⟩
    · cases h; exact ⟨h2, h1⟩
  | die => rw [hb] at h; cases h
  | ub => rw [hb] at h; cases h
  | hang => rw [hb] at h; cases h

theorem hist_inv {rq : (Nat → Nat) → List Nat → List Nat} (hq : QSort rq) {fq : List Flow.Flow → List Flow.Flow} (hfq : Sorts fq) {conf : Conf} {s : Sys} (h : Hist rq fq conf s) : Inv s := by
  induction h with
  | start ping => exact start_inv ping
  | set env c _ hc hset hst ih =>
    rcases cmdSet_cases hq hfq ih env hc with ⟨e, _⟩ | ⟨st, r, e, k⟩
    · rw [e] at hset; cases hset
    · rw [e] at hset; cases hset; exact k hst
  | delete name _ hd ih =>
    obtain ⟨st, r, e, k, _⟩ := delete_inv ih name
    rw [e] at hd; cases hd; exact k
  | arrive proto data _ hp hs ih => exact (arrive_inv ih hp hs).1
  | finish env i _ hs ih => exact (finish_inv ih hs).1

theorem inv_balanced {s : Sys} (h : Inv s) : Balanced s := by
  refine ⟨?_, fun p lb hp => (h.bal.count p lb hp).1, h.bal.listed, h.bal.nodup, h.bal.uniq⟩
  intro p hp
  constructor
  · intro hn
    cases hl : s.st.heap p with
    | none => exact absurd hl hn
    | some lb => exact (h.bal.count p lb hl).2
  · intro hr hn
    have := h.bal.dead p hp hn
    omega

end Nfqlb.FlowLb
