import Verif.Proof.FlowLbPkt
import Verif.Proof.ServerInv

/-! What the functions of `flowlb` leave as it is in the load-balancers. -/

set_option autoImplicit false

namespace Nfqlb.FlowLb

open Nfqlb Nfqlb.Spec Nfqlb.Spec.FL Nfqlb.Spec.FLB Nfqlb.Spec.RS Nfqlb.Flow Nfqlb.Maglev
open Nfqlb.Server (bind_ok)

/-- The load-balancers after are those before, or new ones with shared memory as `env` says. -/
def Back (env : Env) (st st' : St) : Prop :=
  st.next ≤ st'.next ∧ ∀ q l', st'.heap q = some l' → (∃ l, st.heap q = some l ∧ l.target = l'.target ∧ l.seg = l'.seg) ∨ (st.next ≤ q ∧ env.shm l'.target = some l'.seg)

theorem Back.refl (env : Env) (st : St) : Back env st st := ⟨Nat.le_refl _, fun _ l h => .inl ⟨l, h, rfl, rfl⟩⟩

theorem Back.trans {env : Env} {a b c : St} (h1 : Back env a b) (h2 : Back env b c) : Back env a c := by
  refine ⟨Nat.le_trans h1.1 h2.1, fun q l'' h => ?_⟩
  rcases h2.2 q l'' h with ⟨l', e, t1, s1⟩ | ⟨hn, hs⟩
  · rcases h1.2 q l' e with ⟨l, e, t2, s2⟩ | ⟨hn, hs⟩
    · exact .inl ⟨l, e, by rw [t2, t1], by rw [s2, s1]⟩
    · exact .inr ⟨hn, by rw [← t1, ← s1]; exact hs⟩
  · exact .inr ⟨Nat.le_trans h1.1 hn, hs⟩

theorem lock_same (env : Env) {st st' : St} {p : Nat} (h : lock st p = .ok st') : Back env st st' := by
  unfold lock at h
  cases hh : st.heap p with
  | none => rw [hh] at h; cases h
  | some lb =>
    rw [hh] at h
    cases h
    refine ⟨Nat.le_refl _, fun q l' hl => .inl ?_⟩
    dsimp only at hl
    by_cases hq : q = p
    · subst hq
      rw [setLB_self] at hl
      cases hl
      exact ⟨lb, hh, rfl, rfl⟩
    · rw [setLB_ne _ hq] at hl
      exact ⟨l', hl, rfl, rfl⟩

theorem release_same (env : Env) {st st' : St} {p : Nat} (h : release st p = .ok st') : Back env st st' := by
  unfold release at h
  split at h
  · cases h; exact Back.refl env st
  · cases hh : st.heap p with
    | none => rw [hh] at h; cases h
    | some lb =>
      rw [hh] at h
      dsimp only at h
      split at h
      · cases h
      · split at h
        · cases h
          refine ⟨Nat.le_refl _, fun q l' hl => .inl ?_⟩
          dsimp only at hl
          by_cases hq : q = p
          · subst hq; rw [setLB_self] at hl; cases hl
          · rw [setLB_ne _ hq] at hl; exact ⟨l', hl, rfl, rfl⟩
        · cases h
          refine ⟨Nat.le_refl _, fun q l' hl => .inl ?_⟩
          dsimp only at hl
          by_cases hq : q = p
          · subst hq; rw [setLB_self] at hl; cases hl; exact ⟨lb, hh, rfl, rfl⟩
          · rw [setLB_ne _ hq] at hl; exact ⟨l', hl, rfl, rfl⟩

theorem find_same (env : Env) {st st' : St} {t : Option (List Char)} {q : Nat} (h : findOrCreate env st t = .ok (st', q)) : Back env st st' := by
  unfold findOrCreate at h
  split at h
  · cases h; exact Back.refl env st
  · obtain ⟨o, _, h⟩ := bind_ok h
    split at h
    · obtain ⟨st1, e, h⟩ := bind_ok h
      cases h
      exact lock_same env e
    · split at h
      · cases h; exact Back.refl env st
      · rename_i seg hs
        cases h
        refine ⟨by dsimp only; omega, fun q l' hl => ?_⟩
        dsimp only at hl
        by_cases hq : q = st.next
        · subst hq
          rw [setLB_self] at hl
          cases hl
          exact .inr ⟨Nat.le_refl _, hs⟩
        · rw [setLB_ne _ hq] at hl
          exact .inl ⟨l', hl, rfl, rfl⟩

theorem lookupName_same (env : Env) {st st' : St} {n : Option (List Char)} {r : Option (Nat × Nat)} (h : lookupName st n = .ok (st', r)) : Back env st st' := by
  unfold lookupName at h
  split at h
  · split at h
    · cases h; exact Back.refl env st
    · cases h
  · split at h
    · cases h; exact Back.refl env st
    · obtain ⟨st1, e, h⟩ := bind_ok h
      cases h
      exact lock_same env e

theorem setLb_same (env : Env) {st st' : St} {c : Cmd} {r : Reply ⊕ Nat} (h : setLb env st c = .ok (st', r)) : Back env st st' := by
  unfold setLb at h
  obtain ⟨⟨st1, found⟩, e1, h⟩ := bind_ok h
  have b1 := lookupName_same env e1
  dsimp only at h
  split at h
  · obtain ⟨st2, e2, h⟩ := bind_ok h
    have b2 := b1.trans (release_same env e2)
    split at h
    · cases h; exact b2
    · split at h
      · split at h
        · obtain ⟨⟨st3, q⟩, e3, h⟩ := bind_ok h
          have b3 := b2.trans (find_same env e3)
          dsimp only at h
          split at h
          · cases h; exact b3
          · obtain ⟨st4, e4, h⟩ := bind_ok h
            cases h
            exact b3.trans (release_same env e4)
        · cases h; exact b2
      · cases h
  · obtain ⟨⟨st3, q⟩, e3, h⟩ := bind_ok h
    have b3 := b1.trans (find_same env e3)
    dsimp only at h
    split at h <;> (cases h; exact b3)

theorem Back.fset {env : Env} {a b : St} (h : Back env a b) (fs : FlowSet) : Back env a { b with fset := fs } := h

theorem lookup_same (env : Env) {st st' : St} {key : Key} {l3 : Nat} {data : Packet} {u t v : Nat} (h : lookup st key l3 data u = .ok (st', t, v)) : Back env st st' := by
  unfold lookup at h
  obtain ⟨⟨lb, w⟩, _, h⟩ := bind_ok h
  dsimp only at h
  split at h
  · cases h; exact Back.refl env st
  · obtain ⟨st1, e, h⟩ := bind_ok h
    cases h
    exact lock_same env e

theorem pktHandle_same (env env' : Env) {conf : Conf} {st st' : St} {proto : Nat} {data : Packet} {a : LbAction} (h : pktHandle conf env st proto data = .ok (st', a)) : Back env' st st' := by
  unfold pktHandle at h
  obtain ⟨⟨st1, r⟩, e1, h⟩ := bind_ok h
  have b1 : Back env' st st1 := by
    unfold pktBegin at e1
    obtain ⟨p, _, e1⟩ := bind_ok e1
    split at e1
    · cases e1; exact Back.refl env' st
    · dsimp only at e1
      have hend : (if p.rc % 4 ≠ 0 ∧ p.rc % 2 = 0 then pure (st, Pkt.done (LbAction.later p.key)) else pktLookup conf st proto data p) = .ok (st1, r) → Back env' st st1 := by
        intro e1
        split at e1
        · cases e1; exact Back.refl env' st
        · unfold pktLookup at e1
          obtain ⟨⟨st2, lb, v⟩, e2, e1⟩ := bind_ok e1
          have b2 := lookup_same env' e2
          dsimp only at e1
          split at e1
          · obtain ⟨p', _, e1⟩ := bind_ok e1
            split at e1
            · cases e1; exact b2
            · obtain ⟨⟨st3, lb', v'⟩, e3, e1⟩ := bind_ok e1
              have b3 := b2.trans (lookup_same env' e3)
              dsimp only at e1
              split at e1 <;> (cases e1; exact b3)
          · split at e1 <;> (cases e1; exact b2)
      split at e1
      · obtain ⟨red, _, e1⟩ := bind_ok e1
        cases red with
        | some fw => cases e1; exact Back.refl env' st
        | none => exact hend e1
      · exact hend e1
  dsimp only at h
  split at h
  · cases h; exact b1
  · unfold pktEnd at h
    split at h
    · cases h
    · obtain ⟨fw, _, h⟩ := bind_ok h
      obtain ⟨st2, e2, h⟩ := bind_ok h
      have b2 := b1.trans (release_same env' e2)
      split at h
      · cases h; exact b2
      · split at h
        · obtain ⟨k, _, h⟩ := bind_ok h
          cases h; exact b2
        · cases h; exact b2

/-- No load-balancer is found or made only if there is no shared memory. -/
theorem find_zero {env : Env} {st st' : St} {R : Nat → Nat} (hb : Bal st R) {t : List Char} (h : findOrCreate env st (some t) = .ok (st', 0)) : env.shm t = none := by
  unfold findOrCreate at h
  dsimp only at h
  obtain ⟨o, e, h⟩ := bind_ok h
  cases o with
  | some p =>
    dsimp only at h
    obtain ⟨st1, e2, h⟩ := bind_ok h
    cases h
    unfold lock at e2
    rw [hb.null] at e2
    cases e2
  | none =>
    dsimp only at h
    cases hs : env.shm t with
    | none => rfl
    | some seg =>
      rw [hs] at h
      have hp := hb.pos
      injection h with h
      injection h with _ h
      omega

/-- Why a request gets no load-balancer. -/
theorem setLb_refused {s : Sys} (hi : Inv s) {env : Env} {c : Cmd} {n t : List Char} (hn : c.name = some n) (ht : c.target = some t) (hh : n.head? ≠ some '#') {st' : St} {r : Reply}
    (h : setLb env s.st c = .ok (st', .inl r)) : (∃ f ∈ s.st.fset.flows, f.name = n ∧ f.udpencap ≠ c.udpencap) ∨ env.shm t = none := by
  unfold setLb at h
  rw [hn, ht] at h
  rcases lookupName_cases hi n hh with ⟨e, hno⟩ | ⟨f, st1, h1, h2, h0, e, hfs, hb, hkeep⟩
  · rw [e] at h
    simp only [Res.ok_bind, Res.pure_eq] at h
    obtain ⟨⟨st3, q⟩, e3, h⟩ := bind_ok h
    dsimp only at h
    split at h
    · rename_i hq
      subst hq
      exact .inr (find_zero hi.bal e3)
    · cases h
  · rw [e] at h
    simp only [Res.ok_bind, Res.pure_eq] at h
    have hr : 0 < refs s f.userRef := flow_refs h1
    obtain ⟨st2, e1, e2, e3, e4⟩ := release_ok hb (p := f.userRef) (by unfold inc; rw [if_pos rfl]; omega) h0
    rw [dec_inc] at e3
    rw [e1] at h
    simp only [Res.ok_bind] at h
    by_cases hu : f.udpencap ≠ c.udpencap
    · exact .inl ⟨f, h1, h2, hu⟩
    · rw [if_neg hu] at h
      split at h
      · split at h
        · rename_i heq _ _ _
          obtain ⟨⟨st3, q⟩, e5, h⟩ := bind_ok h
          dsimp only at h
          split at h
          · rename_i hq
            subst hq
            have : findOrCreate env st2 (some t) = .ok (st3, 0) := by
              rename_i h5 _ _
              first | exact e5 | (cases h5; exact e5)
            exact .inr (find_zero e3 this)
          · obtain ⟨st4, _, h⟩ := bind_ok h
            cases h
        · cases h
      · cases h

theorem define_true {rq : (Nat → Nat) → List Nat → List Nat} {fq : List Flow.Flow → List Flow.Flow} {set set' : FlowSet} {a : Args} {n : List Char} {f : Flow.Flow} (hn : a.name = some n) (hl : n.length ≤ 1018) (hb : build rq a n = .ok (some f))
    (h : flowDefine rq fq set a = .ok (set', false)) : False := by
  unfold flowDefine at h
  rw [hn] at h
  dsimp only at h
  rw [if_neg (by omega), hb] at h
  simp only [Res.ok_bind, Res.pure_eq] at h
  obtain ⟨_, _, h⟩ := bind_ok h
  obtain ⟨_, _, h⟩ := bind_ok h
  cases h

/-- `cmd_set` for flows without encapsulation that `flowDefine` takes. -/
theorem cmdSet_plain {rq : (Nat → Nat) → List Nat → List Nat} (hq : QSort rq) {fq : List Flow.Flow → List Flow.Flow} (hfq : Sorts fq) {s : Sys} (hi : Inv s) (env : Env) {c : Cmd} {n t : List Char} (hn : c.name = some n) (ht : c.target = some t)
    (hh : n.head? ≠ some '#') (hl : n.length ≤ 1018) (hu : c.udpencap = 0) (hz : ∀ f ∈ s.st.fset.flows, f.udpencap = 0)
    (hm : ShortNets c.dsts ∧ ShortNets c.srcs ∧ Mild c.priority ∧ ∀ f ∈ s.st.fset.flows, Mild f.priority) (hbuild : ∀ lb, ∃ f, build rq (flowArgs c lb) n = .ok (some f)) :
    ∃ st r, cmdSet rq fq env s.st c = .ok (st, r) ∧ Inv ⟨st, s.held⟩ ∧ Back env s.st st ∧ r ≠ .sctp ∧ r ≠ .define ∧
      ((r ≠ .ok ∧ st.fset = s.st.fset ∧ env.shm t = none) ∨
       (r = .ok ∧ ∃ f, After s.st.fset st.fset f ∧ build rq (flowArgs c f.userRef) n = .ok (some f) ∧ f.name = n ∧ f.userRef ≠ 0 ∧ f.udpencap = 0 ∧ ∃ l, st.heap f.userRef = some l ∧ l.target = t)) := by
  have hc : Named c := ⟨n, t, hn, ht, hh, hl, by omega⟩
  have hcases := cmdSet_cases hq hfq hi env hc
  rcases hcases with ⟨_, h⟩ | ⟨st, r, e, hinv⟩
  · exact absurd hm h
  obtain ⟨st1, r1, e1, hfs, htar, hr⟩ := setLb_spec hi env hn ht hh
  have hb1 := setLb_same env e1
  have e' := e
  unfold cmdSet at e'
  rw [e1] at e'
  simp only [Res.ok_bind, Res.pure_eq] at e'
  cases r1 with
  | inl reply =>
    dsimp only at e'
    obtain ⟨rfl, rfl⟩ : st1 = st ∧ reply = r := by cases e'; exact ⟨rfl, rfl⟩
    have hne : reply ≠ .sctp ∧ reply ≠ .define ∧ reply ≠ .ok := by
      rcases hr with ⟨rep, hrep, hr, hb⟩ | ⟨_, _, _, _, hr, _⟩ | ⟨_, _, _, _, _, _, _, hr, _⟩ | ⟨_, _, _, hr, _⟩
      · cases hr
        rcases hrep with h | h | h <;> subst h <;> decide
      · cases hr
      · cases hr
      · cases hr
    refine ⟨st1, reply, e, hinv (fun h => by rcases h with h | h; exact absurd h hne.1; exact absurd h hne.2.1), hb1, hne.1, hne.2.1, .inl ⟨hne.2.2, hfs, ?_⟩⟩
    rcases setLb_refused hi hn ht hh e1 with ⟨f, hf, _, h⟩ | h
    · rw [hz f hf, hu] at h; exact absurd rfl h
    · exact h
  | inr lb =>
    dsimp only at e'
    obtain ⟨l, hl1, hl2⟩ := htar lb rfl
    have hlb : lb ≠ 0 := by
      rcases hr with ⟨_, _, hr, _⟩ | ⟨g, _, _, h0, hr, _⟩ | ⟨_, _, _, _, _, q, h0, hr, _⟩ | ⟨_, q, h0, hr, _⟩ <;> cases hr <;> exact h0
    unfold setUdp at e'
    rw [if_pos hu] at e'
    simp only [Res.ok_bind] at e'
    unfold setFlow at e'
    have hset : SetOK st1.fset := by rw [hfs]; exact hi.flowset
    rcases define_cases hq hfq hset (flowArgs c lb) with e2 | ⟨s', f, nm, e2, f1, f2, f3, f4, f5, f6, f7, a1, a2⟩ | ⟨e2, hno⟩
    · obtain ⟨f, hb⟩ := hbuild lb
      exact (define_true (a := flowArgs c lb) hn hl hb e2).elim
    · rw [e2] at e'
      cases e'
      have : nm = n := by
        have h : c.name = some nm := f1
        rw [hn] at h; cases h; rfl
      subst this
      have hu' : f.userRef = lb := f6
      refine ⟨_, _, e, hinv (fun h => by rcases h with h | h <;> cases h), hb1.fset _, (by decide), (by decide), .inr ⟨rfl, f, ?_, ?_, f4, ?_, ?_, l, ?_, hl2⟩⟩
      · rw [← hfs]; exact a1
      · rw [hu']; exact f2
      · rw [hu']; exact hlb
      · rw [f7]; exact hu
      · rw [hu']; exact hl1
    · rw [e2] at e'; cases e'

/-- `cmd_delete` if no flow has encapsulation. -/
theorem cmdDelete_plain {s : Sys} (hi : Inv s) (env : Env) (n : List Char) (hz : ∀ f ∈ s.st.fset.flows, f.udpencap = 0) :
    ∃ st, cmdDelete s.st (some n) = .ok (st, .ok) ∧ Inv ⟨st, s.held⟩ ∧ Back env s.st st ∧ st.fset.ping = s.st.fset.ping ∧ st.fset.flows = s.st.fset.flows.filter (fun g => g.name ≠ n) := by
  obtain ⟨st, r, e, hinv, _⟩ := delete_inv hi (some n)
  have e' := e
  simp only [cmdDelete, Res.pure_eq] at e'
  rcases delete_spec hi.flowset n with ⟨e1, hno⟩ | ⟨f, hf, hfn, e1, hok⟩
  · rw [e1] at e'
    simp only [Res.ok_bind] at e'
    obtain ⟨st1, e2, e'⟩ := bind_ok e'
    cases e'
    have e2' : release s.st 0 = .ok st := e2
    have : st = s.st := by
      unfold release at e2'
      rw [if_pos rfl] at e2'
      cases e2'
      rfl
    subst this
    exact ⟨s.st, e, hinv, Back.refl env s.st, rfl, (filter_all hno).symm⟩
  · rw [e1] at e'
    simp only [Res.ok_bind] at e'
    obtain ⟨st1, e2, e'⟩ := bind_ok e'
    rw [hz f hf, if_neg (by omega)] at e'
    cases e'
    have hb := release_same env e2
    have hfs := release_fset e2
    exact ⟨st, e, hinv, ⟨hb.1, hb.2⟩, by rw [hfs], by rw [hfs]⟩

/-- Without encapsulation, `*udpencap` stays 0. -/
theorem lookup_no_encap {key : Key} {ping : Bool} {l3 : Nat} {data : Packet} : ∀ (l : List Flow.Flow) {t v : Nat}, (∀ f ∈ l, f.udpencap = 0) → lookupLoop key ping l3 data l 0 = .ok (t, v) → v = 0
  | [], t, v, _, h => by cases h; rfl
  | f :: l, t, v, hz, h => by
    simp only [lookupLoop] at h
    obtain ⟨x, _, h⟩ := bind_ok h
    have h0 : (if x = .yes then f.udpencap else 0) = 0 := by
      split
      · exact hz f (by simp)
      · rfl
    rw [h0] at h
    split at h
    · cases h; rfl
    · exact lookup_no_encap l (fun g hg => hz g (by simp [hg])) h

/-- The lookup depends only on which flows match. -/
theorem lookup_congr {key : Key} {ping : Bool} {l3 l3' : Nat} {data data' : Packet} : ∀ (l : List Flow.Flow), (∀ f ∈ l, f.udpencap = 0) →
    (∀ f ∈ l, ∃ v v', flowMatch key f ping l3 data = .ok v ∧ flowMatch key f ping l3' data' = .ok v' ∧ (v ≠ .no ↔ v' ≠ .no)) →
    lookupLoop key ping l3 data l 0 = lookupLoop key ping l3' data' l 0
  | [], _, _ => rfl
  | f :: l, hz, h => by
    obtain ⟨v, v', e, e', hv⟩ := h f (by simp)
    have hu : ∀ x : Verdict, (if x = .yes then f.udpencap else 0) = 0 := by
      intro x
      split
      · exact hz f (by simp)
      · rfl
    simp only [lookupLoop, e, e', Res.ok_bind, hu]
    rw [lookup_congr l (fun g hg => hz g (by simp [hg])) (fun g hg => h g (by simp [hg]))]
    by_cases hn : v ≠ .no ∧ f.userRef ≠ 0
    · rw [if_pos hn, if_pos ⟨hv.1 hn.1, hn.2⟩]
    · rw [if_neg hn, if_neg (fun h => hn ⟨hv.2 h.1, h.2⟩)]

end Nfqlb.FlowLb
