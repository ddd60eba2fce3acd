import Verif.Proof.FlowLbSet
import Verif.Proof.Lb

/-! What the packet handler of `flowlb` returns. -/

set_option autoImplicit false

namespace Nfqlb.FlowLb

open Nfqlb Nfqlb.Spec Nfqlb.Spec.FL Nfqlb.Spec.FLB Nfqlb.Spec.RS Nfqlb.Flow Nfqlb.Maglev

theorem lock_back {st st' : St} {p : Nat} (h : lock st p = .ok st') : ∀ q l', st'.heap q = some l' → ∃ l, st.heap q = some l ∧ l.seg = l'.seg := by
  unfold lock at h
  cases hh : st.heap p with
  | none => rw [hh] at h; cases h
  | some lb =>
    rw [hh] at h
    cases h
    intro q l' hl
    dsimp only at hl
    by_cases hq : q = p
    · subst hq
      rw [setLB_self] at hl
      cases hl
      exact ⟨lb, hh, rfl⟩
    · rw [setLB_ne _ hq] at hl
      exact ⟨l', hl, rfl⟩

/-- A lookup changes only counters. -/
theorem lookup_back {st st' : St} {key : Key} {l3 : Nat} {data : Packet} {u t v : Nat} (h : lookup st key l3 data u = .ok (st', t, v)) :
    flowLookup st.fset key l3 data u = .ok (t, v) ∧ st'.fset = st.fset ∧ (∀ q l', st'.heap q = some l' → ∃ l, st.heap q = some l ∧ l.seg = l'.seg) := by
  unfold lookup at h
  cases h1 : flowLookup st.fset key l3 data u with
  | ok x =>
    obtain ⟨a, b⟩ := x
    rw [h1] at h
    simp only [Res.ok_bind, Res.pure_eq] at h
    by_cases ha : a = 0
    · rw [if_pos ha] at h
      cases h
      exact ⟨by rw [ha], rfl, fun q l' hl => ⟨l', hl, rfl⟩⟩
    · rw [if_neg ha] at h
      cases hk : lock st a with
      | ok s2 =>
        rw [hk] at h
        cases h
        exact ⟨rfl, lock_fset hk, lock_back hk⟩
      | die => rw [hk] at h; cases h
      | ub => rw [hk] at h; cases h
      | hang => rw [hk] at h; cases h
  | die => rw [h1] at h; cases h
  | ub => rw [h1] at h; cases h
  | hang => rw [h1] at h; cases h

theorem pktLookup_cases {conf : Conf} {st st' : St} {proto : Nat} {data : Packet} {p : Parsed} {r : Pkt} (h : pktLookup conf st proto data p = .ok (st', r)) :
    st'.fset = st.fset ∧ (∀ q l', st'.heap q = some l' → ∃ l, st.heap q = some l ∧ l.seg = l'.seg) ∧ ∃ q, KeyOf proto data p q ∧
      ((q.rc < 0 ∧ r = .done (.verdict (-1))) ∨ ∃ lb v, flowLookup st.fset q.key proto data 0 = .ok (lb, v) ∧ ((lb = 0 ∧ r = .done (.verdict conf.nolb)) ∨ (lb ≠ 0 ∧ r = .has lb q))) := by
  unfold pktLookup at h
  cases h1 : lookup st p.key proto data 0 with
  | ok x =>
    obtain ⟨st1, lb, u⟩ := x
    rw [h1] at h
    simp only [Res.ok_bind, Res.pure_eq] at h
    obtain ⟨a1, a2, a3⟩ := lookup_back h1
    by_cases he : isEncap p.key u = true
    · rw [if_pos he] at h
      unfold isEncap at he
      rw [decide_eq_true_eq] at he
      cases h2 : getHashKey u proto data with
      | ok q =>
        rw [h2] at h
        simp only [Res.ok_bind] at h
        have hkey : KeyOf proto data p q := .inr ⟨he.1, by rw [he.2]; exact h2⟩
        by_cases hrc : q.rc < 0
        · rw [if_pos hrc] at h
          cases h
          exact ⟨a2, a3, q, hkey, .inl ⟨hrc, rfl⟩⟩
        · rw [if_neg hrc] at h
          cases h3 : lookup st1 q.key proto data 0 with
          | ok x =>
            obtain ⟨st2, lb2, v2⟩ := x
            rw [h3] at h
            simp only [Res.ok_bind] at h
            obtain ⟨b1, b2, b3⟩ := lookup_back h3
            rw [a2] at b1 b2
            have hback : ∀ q l', st2.heap q = some l' → ∃ l, st.heap q = some l ∧ l.seg = l'.seg := by
              intro q l' hl
              obtain ⟨l1, c1, c2⟩ := b3 q l' hl
              obtain ⟨l0, d1, d2⟩ := a3 q l1 c1
              exact ⟨l0, d1, by rw [d2, c2]⟩
            by_cases hl : lb2 = 0
            · rw [if_pos hl] at h
              cases h
              exact ⟨b2, hback, q, hkey, .inr ⟨lb2, v2, b1, .inl ⟨hl, rfl⟩⟩⟩
            · rw [if_neg hl] at h
              cases h
              exact ⟨b2, hback, q, hkey, .inr ⟨lb2, v2, b1, .inr ⟨hl, rfl⟩⟩⟩
          | die => rw [h3] at h; cases h
          | ub => rw [h3] at h; cases h
          | hang => rw [h3] at h; cases h
      | die => rw [h2] at h; cases h
      | ub => rw [h2] at h; cases h
      | hang => rw [h2] at h; cases h
    · rw [if_neg he] at h
      by_cases hl : lb = 0
      · rw [if_pos hl] at h
        cases h
        exact ⟨a2, a3, p, .inl rfl, .inr ⟨lb, u, a1, .inl ⟨hl, rfl⟩⟩⟩
      · rw [if_neg hl] at h
        cases h
        exact ⟨a2, a3, p, .inl rfl, .inr ⟨lb, u, a1, .inr ⟨hl, rfl⟩⟩⟩
  | die => rw [h1] at h; cases h
  | ub => rw [h1] at h; cases h
  | hang => rw [h1] at h; cases h

/-- What becomes of a packet with a load-balancer. -/
theorem pktEnd_cases {conf : Conf} {env : Env} {st st' : St} {lb : Nat} {q : Parsed} {a : LbAction} (h : pktEnd conf env st lb q = .ok (st', a)) (hm : ∀ i, MagInv (env.mag i)) :
    ∃ l, st.heap lb = some l ∧ ((activeMarks (env.mag l.seg).active = ∅ ∧ a = .verdict conf.notargets) ∨
      ∃ fw ∈ activeMarks (env.mag l.seg).active, Maglev.target (env.mag l.seg) (hashKey q.key conf.hashMode) = .ok fw ∧
        ((q.rc % 2 ≠ 1 ∧ a = .verdict fw) ∨ (q.rc % 2 = 1 ∧ ∃ k, withFragid q = .ok k ∧ a = .first k fw))) := by
  unfold pktEnd at h
  cases hl : st.heap lb with
  | none => rw [hl] at h; cases h
  | some l =>
    rw [hl] at h
    dsimp only at h
    refine ⟨l, rfl, ?_⟩
    obtain ⟨fw, ht, hc⟩ := target_cases (hm l.seg) (hashKey q.key conf.hashMode)
    rw [ht] at h
    simp only [Res.ok_bind, Res.pure_eq] at h
    cases hr : release st lb with
    | ok st2 =>
      rw [hr] at h
      simp only [Res.ok_bind] at h
      rcases hc with ⟨_, h2, h3⟩ | ⟨h2, h3⟩
      · rw [if_neg (by omega)] at h
        refine .inr ⟨fw, h2, ht, ?_⟩
        by_cases hrc : q.rc % 2 = 1
        · rw [if_pos hrc] at h
          cases hw : withFragid q with
          | ok k => rw [hw] at h; cases h; exact .inr ⟨hrc, k, rfl, rfl⟩
          | die => rw [hw] at h; cases h
          | ub => rw [hw] at h; cases h
          | hang => rw [hw] at h; cases h
        · rw [if_neg hrc] at h
          cases h
          exact .inl ⟨hrc, rfl⟩
      · rw [if_pos (by omega)] at h
        cases h
        exact .inl ⟨h2, rfl⟩
    | die => rw [hr] at h; cases h
    | ub => rw [hr] at h; cases h
    | hang => rw [hr] at h; cases h

/-- The result for packets that are looked up. -/
theorem lookup_result {conf : Conf} {env : Env} {st st' : St} {proto : Nat} {data : Packet} {p : Parsed} {a : LbAction} (hm : ∀ i, MagInv (env.mag i))
    (h : (do let (st, r) ← pktLookup conf st proto data p
             match r with
             | .done a => return (st, a)
             | .has lb p => pktEnd conf env st lb p) = .ok (st', a)) :
    ∃ q, KeyOf proto data p q ∧ ((q.rc < 0 ∧ a = .verdict (-1)) ∨ ∃ lb v, flowLookup st.fset q.key proto data 0 = .ok (lb, v) ∧ ((lb = 0 ∧ a = .verdict conf.nolb) ∨
      (lb ≠ 0 ∧ ∃ l, st.heap lb = some l ∧ ((activeMarks (env.mag l.seg).active = ∅ ∧ a = .verdict conf.notargets) ∨
      ∃ fw ∈ activeMarks (env.mag l.seg).active, Maglev.target (env.mag l.seg) (hashKey q.key conf.hashMode) = .ok fw ∧
        ((q.rc % 2 ≠ 1 ∧ a = .verdict fw) ∨ (q.rc % 2 = 1 ∧ ∃ k, withFragid q = .ok k ∧ a = .first k fw)))))) := by
  cases h1 : pktLookup conf st proto data p with
  | ok x =>
    obtain ⟨st1, r⟩ := x
    rw [h1] at h
    simp only [Res.ok_bind, Res.pure_eq] at h
    obtain ⟨_, hb, q, hk, hr⟩ := pktLookup_cases h1
    refine ⟨q, hk, ?_⟩
    rcases hr with ⟨h2, rfl⟩ | ⟨lb, v, h2, ⟨h3, rfl⟩ | ⟨h3, rfl⟩⟩
    · cases h
      exact .inl ⟨h2, rfl⟩
    · cases h
      exact .inr ⟨lb, v, h2, .inl ⟨h3, rfl⟩⟩
    · dsimp only at h
      refine .inr ⟨lb, v, h2, .inr ⟨h3, ?_⟩⟩
      obtain ⟨l, hl, hc⟩ := pktEnd_cases h hm
      obtain ⟨l0, k1, k2⟩ := hb lb l hl
      rw [← k2] at hc
      exact ⟨l0, k1, hc⟩
  | die => rw [h1] at h; cases h
  | ub => rw [h1] at h; cases h
  | hang => rw [h1] at h; cases h

/-- The tier. -/
theorem redirect_cases {tier : Option (Mag × Int)} {key : Key} {fw : Int} (h : tierRedirect tier key = .ok (some fw)) (ht : ∀ d own, tier = some (d, own) → MagInv d) :
    ∃ d own, tier = some (d, own) ∧ fw ∈ activeMarks d.active ∧ fw ≠ own := by
  unfold tierRedirect at h
  cases tier with
  | none => cases h
  | some x =>
    obtain ⟨d, own⟩ := x
    dsimp only at h
    obtain ⟨fw2, h1, h2⟩ := target_cases (ht d own rfl) (hashKeyAddresses key)
    rw [h1] at h
    simp only [Res.ok_bind, Res.pure_eq, Res.ok.injEq] at h
    by_cases hc : 0 ≤ fw2 ∧ fw2 ≠ own
    · rw [if_pos hc] at h
      cases h
      rcases h2 with ⟨_, h2, _⟩ | ⟨_, h2⟩
      · exact ⟨d, own, rfl, h2, hc.2⟩
      · omega
    · rw [if_neg hc] at h; cases h

theorem handle_cases {conf : Conf} {env : Env} {st st' : St} {proto : Nat} {data : Packet} {a : LbAction} (hm : ∀ i, MagInv (env.mag i)) (ht : ∀ d own, conf.tier = some (d, own) → MagInv d)
    (h : pktHandle conf env st proto data = .ok (st', a)) :
    ∃ p, getHashKey 0 proto data = .ok p ∧
      ((p.rc < 0 ∧ a = .verdict (-1)) ∨
       (p.rc % 4 ≠ 0 ∧ ∃ d own fw, conf.tier = some (d, own) ∧ fw ∈ activeMarks d.active ∧ fw ≠ own ∧ a = .verdict fw) ∨
       (p.rc % 4 ≠ 0 ∧ p.rc % 2 = 0 ∧ a = .later p.key) ∨
       (0 ≤ p.rc ∧ (p.rc % 4 = 0 ∨ p.rc % 2 = 1) ∧
         ∃ q, KeyOf proto data p q ∧ ((q.rc < 0 ∧ a = .verdict (-1)) ∨ ∃ lb v, flowLookup st.fset q.key proto data 0 = .ok (lb, v) ∧ ((lb = 0 ∧ a = .verdict conf.nolb) ∨
          (lb ≠ 0 ∧ ∃ l, st.heap lb = some l ∧ ((activeMarks (env.mag l.seg).active = ∅ ∧ a = .verdict conf.notargets) ∨
          ∃ fw ∈ activeMarks (env.mag l.seg).active, Maglev.target (env.mag l.seg) (hashKey q.key conf.hashMode) = .ok fw ∧
            ((q.rc % 2 ≠ 1 ∧ a = .verdict fw) ∨ (q.rc % 2 = 1 ∧ ∃ k, withFragid q = .ok k ∧ a = .first k fw)))))))) := by
  unfold pktHandle pktBegin at h
  cases h1 : getHashKey 0 proto data with
  | ok p =>
    rw [h1] at h
    refine ⟨p, rfl, ?_⟩
    simp only [Res.ok_bind, Res.pure_eq] at h
    by_cases hrc : p.rc < 0
    · rw [if_pos hrc] at h
      cases h
      exact .inl ⟨hrc, rfl⟩
    · rw [if_neg hrc] at h
      by_cases h4 : p.rc % 4 ≠ 0
      · rw [if_pos h4] at h
        cases hr : tierRedirect conf.tier p.key with
        | ok o =>
          rw [hr] at h
          cases o with
          | some fw =>
            cases h
            obtain ⟨d, own, k1, k2, k3⟩ := redirect_cases hr ht
            exact .inr (.inl ⟨h4, d, own, fw, k1, k2, k3, rfl⟩)
          | none =>
            simp only [Res.ok_bind] at h
            by_cases h2 : p.rc % 2 = 0
            · rw [if_pos ⟨h4, h2⟩] at h
              cases h
              exact .inr (.inr (.inl ⟨h4, h2, rfl⟩))
            · rw [if_neg (fun h => h2 h.2)] at h
              exact .inr (.inr (.inr ⟨by omega, .inr (by omega), lookup_result hm h⟩))
        | die => rw [hr] at h; cases h
        | ub => rw [hr] at h; cases h
        | hang => rw [hr] at h; cases h
      · rw [if_neg h4, if_neg (fun h => h4 h.1)] at h
        exact .inr (.inr (.inr ⟨by omega, .inl (by omega), lookup_result hm h⟩))
  | die => rw [h1] at h; cases h
  | ub => rw [h1] at h; cases h
  | hang => rw [h1] at h; cases h

end Nfqlb.FlowLb
