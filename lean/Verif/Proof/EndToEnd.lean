import Verif.Spec.EndToEnd
import Verif.Proof.FragRuns

/-! The packet handlers with the fragment table. -/

set_option autoImplicit false

namespace Nfqlb.E2E

open Nfqlb Nfqlb.Frag Nfqlb.Spec.E2E
open Nfqlb.Spec.Frag (timeOf keyOf)

variable {N MB MF T : Nat}

/-- The first fragment got `fw`, and no other was registered since. -/
def Reg (h : List (Arrival × Int)) (k : Key) (fw : Int) : Prop :=
  ∃ h1 f h2, h = h1 ++ (f, fw) :: h2 ∧ IsFirst f k fw ∧ ∀ g v fw', (g, v) ∈ h2 → IsFirst g k fw' → v = -1

theorem timed_mono : ∀ {as : List Arrival} {t t' : Nat}, t' ≤ t → Spec.E2E.Timed t as → Spec.E2E.Timed t' as
  | [], _, _, _, _ => trivial
  | a :: as, t, t', h, ⟨h1, h2, h3⟩ => ⟨by omega, h2, h3⟩

theorem reg_snoc {h : List (Arrival × Int)} {k : Key} {fw : Int} (r : Reg h k fw) {a : Arrival} {v : Int} (hn : ∀ fw', IsFirst a k fw' → v = -1) : Reg (h ++ [(a, v)]) k fw := by
  obtain ⟨h1, f, h2, rfl, hf, hg⟩ := r
  refine ⟨h1, f, h2 ++ [(a, v)], by simp, hf, ?_⟩
  intro g w fw' hm hfst
  simp only [List.mem_append, List.mem_singleton, Prod.mk.injEq] at hm
  rcases hm with hm | ⟨rfl, rfl⟩
  · exact hg g w fw' hm hfst
  · exact hn fw' hfst

/-- Where the values in the table come from. -/
def Orig (h : List (Arrival × Int)) (ft : Ft) (t : Nat) : Prop := ∀ k e, view ft t k = some e → e.st = .hashValid → Reg h k e.value

theorem orig_advance {h : List (Arrival × Int)} {ft : Ft} {t t' : Nat} (i : FInv N MB MF T ft t 0) (hle : t ≤ t') (h64 : t' < 2 ^ 64) (o : Orig h ft t) : Orig h ft t' := by
  intro k e hv hs
  rw [view_advance i hle h64 k] at hv
  cases hv' : view ft t k with
  | none => rw [hv'] at hv; simp at hv
  | some e' =>
    rw [hv'] at hv
    simp only [Option.filter_some] at hv
    split at hv
    · cases hv; exact o k _ hv' hs
    · simp at hv

theorem finish_later {ft : Ft} {t : Nat} (i : FInv N MB MF T ft t 0) (a : Arrival) (ht : t ≤ a.now) (k : Key) :
    ∃ ft' v out, finish ft a (.later k) = .ok (ft', v, []) ∧ Step N MB MF T ft ft' (.frag a.now k a.id a.data.length a.newOk a.rcAsm) out ∧
      ((out.rc = 0 ∧ out.value = some v) ∨ (out.rc ≠ 0 ∧ out.value = none ∧ v = -1)) := by
  obtain ⟨ft', out, h1, st⟩ := step_all i (.frag a.now k a.id a.data.length a.newOk a.rcAsm) ht
  have hself := st.self k rfl
  have hout : (∃ fw, out.rc = 0 ∧ out.value = some fw) ∨ (out.rc ≠ 0 ∧ out.value = none) := by
    generalize view ft' (timeOf (.frag a.now k a.id a.data.length a.newOk a.rcAsm)) k = b at hself
    generalize view ft (timeOf (.frag a.now k a.id a.data.length a.newOk a.rcAsm)) k = c at hself
    generalize hrc : a.rcAsm = rcA at hself
    cases hself with
    | fragFail => exact .inr ⟨by decide, rfl⟩
    | fragOk _ => exact .inl ⟨_, rfl, rfl⟩
    | fragDone _ => exact .inl ⟨_, rfl, rfl⟩
    | fragPoisoned _ => exact .inr ⟨by decide, rfl⟩
    | fragBig _ _ _ => exact .inr ⟨by decide, rfl⟩
    | fragFull _ _ _ => exact .inr ⟨by decide, rfl⟩
    | fragStore _ _ _ => exact .inr ⟨by decide, rfl⟩
  simp only [finish, h1, Res.ok_bind]
  obtain ⟨rc, val, inj⟩ := out
  rcases hout with ⟨fw, h2, h3⟩ | ⟨h2, h3⟩
  · dsimp only at h2 h3
    subst h2; subst h3
    exact ⟨ft', fw, _, rfl, st, .inl ⟨rfl, rfl⟩⟩
  · dsimp only at h2 h3
    subst h3
    refine ⟨ft', -1, _, ?_, st, .inr ⟨h2, rfl, rfl⟩⟩
    dsimp only
    split
    · rename_i h5; cases h5
    · exact absurd rfl h2
    · rfl

theorem finish_first {ft : Ft} {t : Nat} (i : FInv N MB MF T ft t 0) (a : Arrival) (ht : t ≤ a.now) (k : Key) (fw : Int) :
    ∃ ft' v out, finish ft a (.first k fw) = .ok (ft', v, out.injected) ∧ Step N MB MF T ft ft' (.first a.now k fw a.newOk) out ∧
      ((out.rc = 0 ∧ v = fw) ∨ (out.rc ≠ 0 ∧ v = -1)) := by
  obtain ⟨ft', out, h1, st⟩ := step_all i (.first a.now k fw a.newOk) ht
  simp only [finish, h1, Res.ok_bind]
  by_cases hrc : out.rc = 0
  · refine ⟨ft', fw, out, ?_, st, .inl ⟨hrc, rfl⟩⟩
    rw [if_neg (by simp [hrc])]; rfl
  · refine ⟨ft', -1, out, ?_, st, .inr ⟨hrc, rfl⟩⟩
    rw [if_pos hrc]; rfl

/-- What handling a packet does to the table. -/
theorem handle_inv {h : List (Arrival × Int)} {ft : Ft} {t : Nat} (i : FInv N MB MF T ft t 0) (o : Orig h ft t) (a : Arrival) (ht : t ≤ a.now) (h64 : a.now < 2 ^ 64)
    {act : LbAction} (ha : action a = .ok act) :
    ∃ ft' v inj t', handle ft a = .ok (ft', v, inj) ∧ t ≤ t' ∧ t' ≤ a.now ∧ FInv N MB MF T ft' t' 0 ∧ Orig (h ++ [(a, v)]) ft' t' ∧
      ∀ k, IsLater a k → v = -1 ∨ Reg h k v := by
  have o' := orig_advance i ht h64 o
  cases act with
  | verdict fw =>
    refine ⟨ft, fw, [], t, ?_, Nat.le_refl _, ht, i, ?_, ?_⟩
    · simp only [handle, ha, Res.ok_bind, finish]
    · intro k e hv hs
      refine reg_snoc (o k e hv hs) ?_
      intro fw' hf
      unfold IsFirst at hf
      rw [ha] at hf
      cases hf
    · intro k hk
      unfold IsLater at hk
      rw [ha] at hk
      cases hk
  | later k0 =>
    obtain ⟨ft', v, out, h1, st, h2⟩ := finish_later i a ht k0
    have hnf : ∀ k fw', IsFirst a k fw' → v = -1 := by
      intro k fw' hf
      unfold IsFirst at hf
      rw [ha] at hf
      cases hf
    have hself := st.self k0 rfl
    refine ⟨ft', v, [], a.now, ?_, ht, Nat.le_refl _, st.inv, ?_, ?_⟩
    · simp only [handle, ha, Res.ok_bind, h1]
    · intro k e hv hs
      refine reg_snoc ?_ (hnf k)
      by_cases hk : k0 = k
      · subst hk
        have hv' : view ft' (timeOf (.frag a.now k0 a.id a.data.length a.newOk a.rcAsm)) k0 = some e := hv
        rw [hv'] at hself
        generalize hc : view ft (timeOf (.frag a.now k0 a.id a.data.length a.newOk a.rcAsm)) k0 = c at hself
        have hc' : view ft a.now k0 = c := hc
        generalize hb : some e = b at hself
        generalize hrc : a.rcAsm = rcA at hself
        cases hself with
        | fragFail => simp at hb
        | fragOk h3 => cases hb; have := o' k0 _ hc' h3; exact this
        | fragDone _ => simp at hb
        | fragPoisoned h3 => cases hb; rw [h3] at hs; cases hs
        | fragBig _ h3 _ => cases hb; rw [h3] at hs; cases hs
        | fragFull _ _ _ => cases hb; cases hs
        | fragStore _ _ _ => cases hb; cases hs
      · have := st.other k (by simp [keyOf, hk])
        exact o' k e (this ▸ hv) hs
    · intro k hk
      unfold IsLater at hk
      rw [ha] at hk
      cases hk
      rcases h2 with ⟨h2, h3⟩ | ⟨_, _, h3⟩
      · right
        generalize view ft' (timeOf (.frag a.now k0 a.id a.data.length a.newOk a.rcAsm)) k0 = b at hself
        generalize hc : view ft (timeOf (.frag a.now k0 a.id a.data.length a.newOk a.rcAsm)) k0 = c at hself
        have hc' : view ft a.now k0 = c := hc
        generalize hrc : a.rcAsm = rcA at hself
        cases hself with
        | fragFail => simp at h2
        | fragOk h4 => have := o' k0 _ hc' h4; rw [Option.some.inj h3] at this; exact this
        | fragDone h4 => have := o' k0 _ hc' h4; rw [Option.some.inj h3] at this; exact this
        | fragPoisoned _ => simp at h2
        | fragBig _ _ _ => simp at h2
        | fragFull _ _ _ => simp at h2
        | fragStore _ _ _ => simp at h2
      · exact .inl h3
  | first k0 fw =>
    obtain ⟨ft', v, out, h1, st, h2⟩ := finish_first i a ht k0 fw
    have hself := st.self k0 rfl
    refine ⟨ft', v, out.injected, a.now, ?_, ht, Nat.le_refl _, st.inv, ?_, ?_⟩
    · simp only [handle, ha, Res.ok_bind, h1]
    · intro k e hv hs
      by_cases hk : k0 = k
      · subst hk
        have hv' : view ft' (timeOf (.first a.now k0 fw a.newOk)) k0 = some e := hv
        rw [hv'] at hself
        generalize hc : view ft (timeOf (.first a.now k0 fw a.newOk)) k0 = c at hself
        have hc' : view ft a.now k0 = c := hc
        generalize hb : some e = b at hself
        cases hself with
        | firstFail => simp at hb
        | firstOk _ _ =>
          cases hb
          rcases h2 with ⟨_, rfl⟩ | ⟨h2, _⟩
          · exact ⟨h, a, [], rfl, ha, by simp⟩
          · exact absurd rfl h2
        | firstRefuse h3 =>
          cases hb
          rcases h2 with ⟨h2, _⟩ | ⟨_, h2⟩
          · simp at h2
          · have h5 := o' k0 _ hc' hs; exact reg_snoc h5 (fun _ _ => h2)
      · have := st.other k (by simp [keyOf, hk])
        refine reg_snoc (o' k e (this ▸ hv) hs) ?_
        intro fw' hf
        unfold IsFirst at hf
        rw [ha] at hf
        cases hf
        exact absurd rfl hk
    · intro k hk
      unfold IsLater at hk
      rw [ha] at hk
      cases hk

theorem run_cons' {ft ft1 ft2 : Ft} {a : Arrival} {v : Int} {inj : List Nat} (h : handle ft a = .ok (ft1, v, inj)) {as : List Arrival} {vs : List Int} (h2 : run ft1 as = .ok (ft2, vs)) :
    run ft (a :: as) = .ok (ft2, v :: vs) := by
  simp only [run, h, h2, Res.ok_bind, Res.pure_eq]

theorem run_inv : ∀ (as : List Arrival) {h : List (Arrival × Int)} {ft : Ft} {t : Nat}, FInv N MB MF T ft t 0 → Orig h ft t → Spec.E2E.Timed t as → (∀ a ∈ as, ∃ act, action a = .ok act) →
    ∃ ft' vs t', run ft as = .ok (ft', vs) ∧ vs.length = as.length ∧ t ≤ t' ∧ FInv N MB MF T ft' t' 0 ∧ Orig (h ++ as.zip vs) ft' t' ∧ (∀ b, Spec.E2E.Timed t (as ++ b) → Spec.E2E.Timed t' b)
  | [], h, ft, t, i, o, _, _ => ⟨ft, [], t, rfl, rfl, Nat.le_refl _, i, by simpa using o, fun _ hb => hb⟩
  | a :: as, h, ft, t, i, o, ht, hd => by
    obtain ⟨h1, h2, h3⟩ := ht
    obtain ⟨act, ha⟩ := hd a (by simp)
    obtain ⟨ft1, v, inj, t1, e1, l1, l2, i1, o1, -⟩ := handle_inv i o a h1 h2 ha
    obtain ⟨ft2, vs, t2, e2, hl, l3, i2, o2, hb2⟩ := run_inv as i1 o1 (timed_mono l2 h3) (fun b hb => hd b (by simp [hb]))
    refine ⟨ft2, v :: vs, t2, run_cons' e1 e2, by simp [hl], by omega, i2, ?_, ?_⟩
    · simpa using o2
    · rintro b ⟨g1, g2, g3⟩
      exact hb2 b (timed_mono l2 g3)

theorem lookup_nofirst {conf : FlowLb.Conf} {st st1 : FlowLb.St} {proto : Nat} {data : Packet} {p : Parsed} {k : Key} {fw : Int}
    (h : FlowLb.pktLookup conf st proto data p = .ok (st1, .done (.first k fw))) : False := by
  unfold FlowLb.pktLookup at h
  cases h1 : FlowLb.lookup st p.key proto data 0 with
  | ok x =>
    obtain ⟨st2, lb, ue⟩ := x
    rw [h1] at h
    simp only [Res.ok_bind, Res.pure_eq] at h
    split at h
    · cases h2 : getHashKey ue proto data with
      | ok q =>
        rw [h2] at h
        simp only [Res.ok_bind] at h
        split at h
        · cases h
        · cases h3 : FlowLb.lookup st2 q.key proto data 0 with
          | ok y =>
            obtain ⟨st3, lb2, ue2⟩ := y
            rw [h3] at h
            simp only [Res.ok_bind] at h
            split at h <;> cases h
          | die => rw [h3] at h; cases h
          | ub => rw [h3] at h; cases h
          | hang => rw [h3] at h; cases h
      | die => rw [h2] at h; cases h
      | ub => rw [h2] at h; cases h
      | hang => rw [h2] at h; cases h
    · split at h <;> cases h
  | die => rw [h1] at h; cases h
  | ub => rw [h1] at h; cases h
  | hang => rw [h1] at h; cases h

theorem begin_nofirst {conf : FlowLb.Conf} {st st1 : FlowLb.St} {proto : Nat} {data : Packet} {k : Key} {fw : Int}
    (h : FlowLb.pktBegin conf st proto data = .ok (st1, .done (.first k fw))) : False := by
  unfold FlowLb.pktBegin at h
  cases h1 : getHashKey 0 proto data with
  | ok p =>
    rw [h1] at h
    simp only [Res.ok_bind, Res.pure_eq] at h
    have key : (if p.rc % 4 ≠ 0 ∧ p.rc % 2 = 0 then Res.ok (st, FlowLb.Pkt.done (.later p.key)) else FlowLb.pktLookup conf st proto data p) = .ok (st1, .done (.first k fw)) → False := by
      intro h
      split at h
      · cases h
      · exact lookup_nofirst h
    split at h
    · cases h
    · split at h
      · cases h2 : tierRedirect conf.tier p.key with
        | ok o =>
          rw [h2] at h
          cases o with
          | some x => cases h
          | none => exact key h
        | die => rw [h2] at h; cases h
        | ub => rw [h2] at h; cases h
        | hang => rw [h2] at h; cases h
      · exact key h
  | die => rw [h1] at h; cases h
  | ub => rw [h1] at h; cases h
  | hang => rw [h1] at h; cases h

theorem lookup_has {conf : FlowLb.Conf} {st st1 : FlowLb.St} {proto : Nat} {data : Packet} {p q : Parsed} {lb : Nat} (hp : getHashKey 0 proto data = .ok p) (h0 : 0 ≤ p.rc)
    (h : FlowLb.pktLookup conf st proto data p = .ok (st1, .has lb q)) : ∃ e, getHashKey e proto data = .ok q ∧ 0 ≤ q.rc := by
  unfold FlowLb.pktLookup at h
  cases h1 : FlowLb.lookup st p.key proto data 0 with
  | ok x =>
    obtain ⟨st2, lb', ue⟩ := x
    rw [h1] at h
    simp only [Res.ok_bind, Res.pure_eq] at h
    split at h
    · cases h2 : getHashKey ue proto data with
      | ok q' =>
        rw [h2] at h
        simp only [Res.ok_bind] at h
        split at h
        · cases h
        · rename_i hn
          cases h3 : FlowLb.lookup st2 q'.key proto data 0 with
          | ok y =>
            obtain ⟨st3, lb2, ue2⟩ := y
            rw [h3] at h
            simp only [Res.ok_bind] at h
            split at h
            · cases h
            · cases h; exact ⟨ue, h2, by omega⟩
          | die => rw [h3] at h; cases h
          | ub => rw [h3] at h; cases h
          | hang => rw [h3] at h; cases h
      | die => rw [h2] at h; cases h
      | ub => rw [h2] at h; cases h
      | hang => rw [h2] at h; cases h
    · split at h
      · cases h
      · cases h; exact ⟨0, hp, h0⟩
  | die => rw [h1] at h; cases h
  | ub => rw [h1] at h; cases h
  | hang => rw [h1] at h; cases h

theorem begin_has {conf : FlowLb.Conf} {st st1 : FlowLb.St} {proto : Nat} {data : Packet} {q : Parsed} {lb : Nat}
    (h : FlowLb.pktBegin conf st proto data = .ok (st1, .has lb q)) : ∃ e, getHashKey e proto data = .ok q ∧ 0 ≤ q.rc := by
  unfold FlowLb.pktBegin at h
  cases h1 : getHashKey 0 proto data with
  | ok p =>
    rw [h1] at h
    simp only [Res.ok_bind, Res.pure_eq] at h
    split at h
    · cases h
    · rename_i hn
      have key : (if p.rc % 4 ≠ 0 ∧ p.rc % 2 = 0 then Res.ok (st, FlowLb.Pkt.done (.later p.key)) else FlowLb.pktLookup conf st proto data p) = .ok (st1, .has lb q) →
          ∃ e, getHashKey e proto data = .ok q ∧ 0 ≤ q.rc := by
        intro h
        split at h
        · cases h
        · exact lookup_has h1 (by omega) h
      split at h
      · cases h2 : tierRedirect conf.tier p.key with
        | ok o =>
          rw [h2] at h
          cases o with
          | some x => cases h
          | none => exact key h
        | die => rw [h2] at h; cases h
        | ub => rw [h2] at h; cases h
        | hang => rw [h2] at h; cases h
      · exact key h
  | die => rw [h1] at h; cases h
  | ub => rw [h1] at h; cases h
  | hang => rw [h1] at h; cases h

/-- A packet with the return code for later fragments is given to the table, or to another member of the tier. -/
theorem later_cases {a : Arrival} {act : LbAction} (h : action a = .ok act) {k : Key} (hk : ∀ e, getHashKey e a.proto a.data = .ok { rc := 2, key := k, fragid := none }) :
    act = .later k ∨ ∃ fw, act = .verdict fw := by
  unfold action at h
  cases hp : a.prog with
  | lb c =>
    rw [hp] at h
    dsimp only at h
    unfold lbDecide at h
    rw [hk] at h
    simp only [Res.ok_bind, Res.pure_eq] at h
    rw [if_neg (by decide), if_pos (by decide)] at h
    cases h5 : tierRedirect c.tier k with
    | ok o =>
      rw [h5] at h
      cases o with
      | none =>
        simp only [Res.ok_bind] at h
        rw [if_pos (by decide)] at h
        cases h; exact .inl rfl
      | some x => cases h; exact .inr ⟨_, rfl⟩
    | die => rw [h5] at h; cases h
    | ub => rw [h5] at h; cases h
    | hang => rw [h5] at h; cases h
  | flowlb conf env st =>
    rw [hp] at h
    dsimp only at h
    unfold FlowLb.pktHandle FlowLb.pktBegin at h
    rw [hk] at h
    simp only [Res.ok_bind, Res.pure_eq] at h
    rw [if_neg (by decide), if_pos (by decide)] at h
    cases h5 : tierRedirect conf.tier k with
    | ok o =>
      rw [h5] at h
      cases o with
      | none =>
        simp only [Res.ok_bind] at h
        rw [if_pos (by decide)] at h
        cases h; exact .inl rfl
      | some x => cases h; exact .inr ⟨_, rfl⟩
    | die => rw [h5] at h; cases h
    | ub => rw [h5] at h; cases h
    | hang => rw [h5] at h; cases h

/-- Marks of first fragments are not negative. -/
theorem first_cases {a : Arrival} {k : Key} {fw : Int} (h : IsFirst a k fw) :
    0 ≤ fw ∧ ∃ e p, getHashKey e a.proto a.data = .ok p ∧ 0 ≤ p.rc ∧ p.rc % 2 = 1 ∧ withFragid p = .ok k := by
  unfold IsFirst action at h
  cases hp : a.prog with
  | lb c =>
    rw [hp] at h
    dsimp only at h
    unfold lbDecide at h
    cases h1 : getHashKey c.udpEncap a.proto a.data with
    | ok p =>
      rw [h1] at h
      simp only [Res.ok_bind, Res.pure_eq] at h
      by_cases hrc : p.rc < 0
      · rw [if_pos hrc] at h; cases h
      · rw [if_neg hrc] at h
        have key : ∀ o : Option Int, (match o with
            | some fw => Res.ok (LbAction.verdict fw)
            | none =>
              if p.rc % 4 ≠ 0 ∧ p.rc % 2 = 0 then Res.ok (LbAction.later p.key)
              else do
                let fw ← Maglev.target c.magd (hashKey p.key c.hashMode)
                if fw < 0 then Res.ok (LbAction.verdict c.notargets)
                else if p.rc % 2 = 1 then do
                  let k ← withFragid p
                  Res.ok (LbAction.first k fw)
                else Res.ok (LbAction.verdict fw)) = .ok (.first k fw) →
            0 ≤ fw ∧ ∃ e p, getHashKey e a.proto a.data = .ok p ∧ 0 ≤ p.rc ∧ p.rc % 2 = 1 ∧ withFragid p = .ok k := by
          intro o ho
          cases o with
          | some x => cases ho
          | none =>
            dsimp only at ho
            split at ho
            · cases ho
            · cases h2 : Maglev.target c.magd (hashKey p.key c.hashMode) with
              | ok fw' =>
                rw [h2] at ho
                simp only [Res.ok_bind] at ho
                split at ho
                · cases ho
                · rename_i hn
                  split at ho
                  · rename_i hodd
                    cases h3 : withFragid p with
                    | ok k' => rw [h3] at ho; simp only [Res.ok_bind] at ho; cases ho; exact ⟨by omega, _, p, h1, by omega, hodd, h3⟩
                    | die => rw [h3] at ho; cases ho
                    | ub => rw [h3] at ho; cases ho
                    | hang => rw [h3] at ho; cases ho
                  · cases ho
              | die => rw [h2] at ho; cases ho
              | ub => rw [h2] at ho; cases ho
              | hang => rw [h2] at ho; cases ho
        by_cases h4 : p.rc % 4 ≠ 0
        · rw [if_pos h4] at h
          cases h5 : tierRedirect c.tier p.key with
          | ok o => rw [h5] at h; exact key o h
          | die => rw [h5] at h; cases h
          | ub => rw [h5] at h; cases h
          | hang => rw [h5] at h; cases h
        · rw [if_neg h4] at h; exact key none h
    | die => rw [h1] at h; cases h
    | ub => rw [h1] at h; cases h
    | hang => rw [h1] at h; cases h
  | flowlb conf env st =>
    rw [hp] at h
    dsimp only at h
    unfold FlowLb.pktHandle at h
    cases h1 : FlowLb.pktBegin conf st a.proto a.data with
    | ok x =>
      obtain ⟨st1, r⟩ := x
      rw [h1] at h
      simp only [Res.ok_bind, Res.pure_eq] at h
      cases r with
      | done act =>
        simp only [Res.ok_bind] at h
        cases h
        exact (begin_nofirst h1).elim
      | has lb p =>
        dsimp only at h
        unfold FlowLb.pktEnd at h
        cases h2 : st1.heap lb with
        | none => rw [h2] at h; cases h
        | some l =>
          rw [h2] at h
          dsimp only at h
          cases h3 : Maglev.target (env.mag l.seg) (hashKey p.key conf.hashMode) with
          | ok fw' =>
            rw [h3] at h
            simp only [Res.ok_bind] at h
            cases h4 : FlowLb.release st1 lb with
            | ok st2 =>
              rw [h4] at h
              simp only [Res.ok_bind] at h
              split at h
              · cases h
              · rename_i hn
                split at h
                · rename_i hodd
                  obtain ⟨e, k1, k2⟩ := begin_has h1
                  cases h5 : withFragid p with
                  | ok k' => rw [h5] at h; simp only [Res.ok_bind, Res.pure_eq] at h; cases h; exact ⟨by omega, e, p, k1, k2, hodd, h5⟩
                  | die => rw [h5] at h; cases h
                  | ub => rw [h5] at h; cases h
                  | hang => rw [h5] at h; cases h
                · cases h
            | die => rw [h4] at h; cases h
            | ub => rw [h4] at h; cases h
            | hang => rw [h4] at h; cases h
          | die => rw [h3] at h; cases h
          | ub => rw [h3] at h; cases h
          | hang => rw [h3] at h; cases h
    | die => rw [h1] at h; cases h
    | ub => rw [h1] at h; cases h
    | hang => rw [h1] at h; cases h

theorem run_cons {ft ft1 : Ft} {a : Arrival} {v : Int} {inj : List Nat} (h : handle ft a = .ok (ft1, v, inj)) {as : List Arrival} {ft2 : Ft} {vs : List Int}
    (h2 : run ft (a :: as) = .ok (ft2, vs)) : ∃ ws, vs = v :: ws ∧ run ft1 as = .ok (ft2, ws) := by
  simp only [run, h, Res.ok_bind] at h2
  cases hr : run ft1 as with
  | ok x =>
    obtain ⟨a, b⟩ := x
    rw [hr] at h2
    simp only [Res.ok_bind, Res.pure_eq, Res.ok.injEq, Prod.mk.injEq] at h2
    exact ⟨b, h2.2.symm, by rw [h2.1]⟩
  | die => rw [hr] at h2; simp at h2
  | ub => rw [hr] at h2; simp at h2
  | hang => rw [hr] at h2; simp at h2

/-- After a first fragment. -/
theorem follows_all (k : Key) (fw : Int) : ∀ (as : List Arrival) {ft ft' : Ft} {t last : Nat} {vs : List Int} {e : Entry}, FInv N MB MF T ft t 0 → Spec.E2E.Timed t as →
    Keeps ft t k T last e → e.last = last → e.st = .hashValid → e.value = fw → (∀ a ∈ as, ∃ act, action a = .ok act) → run ft as = .ok (ft', vs) →
    Spec.E2E.Follows k fw T last (as.zip vs)
  | [], _, _, _, _, _, _, _, _, _, _, _, _, _, _ => by simp [Spec.E2E.Follows]
  | a :: as, ft, ft', t, last, vs, e, i, ht, hk, hl, hs, hv, hd, hr => by
    obtain ⟨h1, h2, h3⟩ := ht
    obtain ⟨act, ha⟩ := hd a (by simp)
    have hd' : ∀ b ∈ as, ∃ act, action b = .ok act := fun b hb => hd b (by simp [hb])
    have hk' := hk.advance i h1 h2 hl
    cases act with
    | verdict x =>
      have e1 : handle ft a = .ok (ft, x, []) := by simp only [handle, ha, Res.ok_bind, finish]
      obtain ⟨ws, rfl, hr'⟩ := run_cons e1 hr
      simp only [List.zip_cons_cons, Spec.E2E.Follows]
      refine ⟨?_, ?_, ?_⟩
      · intro h; unfold IsLater at h; rw [ha] at h; cases h
      · rintro ⟨y, h⟩; unfold IsFirst at h; rw [ha] at h; cases h
      · intro _ _
        exact follows_all k fw as i (timed_mono h1 h3) hk hl hs hv hd' hr'
    | later k0 =>
      obtain ⟨ft1, v, out, g1, st, g2⟩ := finish_later i a h1 k0
      have e1 : handle ft a = .ok (ft1, v, []) := by simp only [handle, ha, Res.ok_bind, g1]
      obtain ⟨ws, rfl, hr'⟩ := run_cons e1 hr
      simp only [List.zip_cons_cons, Spec.E2E.Follows]
      refine ⟨?_, ?_, ?_⟩
      · intro h hin
        unfold IsLater at h
        rw [ha] at h
        cases h
        have hself := st.self k rfl
        unfold Keeps at hk'
        rw [if_pos hin] at hk'
        have hk2 : view ft (timeOf (.frag a.now k a.id a.data.length a.newOk a.rcAsm)) k = some e := hk'
        rw [hk2] at hself
        have hnext : view ft1 a.now k = some { e with last := a.now } → Spec.E2E.Follows k fw T a.now (as.zip ws) := by
          intro hv'
          exact follows_all k fw as (e := { e with last := a.now }) st.inv h3 (by unfold Keeps; exact hv'.trans (if_pos (Nat.le_add_right _ _)).symm) rfl hs hv hd' hr'
        have hb : view ft1 (timeOf (.frag a.now k a.id a.data.length a.newOk a.rcAsm)) k = view ft1 a.now k := rfl
        rw [hb] at hself
        generalize view ft1 a.now k = b at hself hnext
        generalize hc : some e = c at hself
        generalize hrc : a.rcAsm = rcA at hself
        have hbad : ∀ {now : Nat} {e1 : Entry}, Base now c e1 → e1.st = .storing → False := by
          rintro now e1 (hB | ⟨hB, _⟩) hq
          · rw [← hc] at hB; cases hB; rw [hs] at hq; cases hq
          · rw [← hc] at hB; cases hB
        cases hself with
        | fragFail => cases hc
        | fragOk _ =>
          cases hc
          rcases g2 with ⟨_, g2⟩ | ⟨g2, _⟩
          · exact ⟨(Option.some.inj g2).symm.trans hv, .inr (hnext rfl)⟩
          · exact absurd rfl g2
        | fragDone _ =>
          cases hc
          rcases g2 with ⟨_, g2⟩ | ⟨g2, _⟩
          · exact ⟨(Option.some.inj g2).symm.trans hv, .inl rfl⟩
          · exact absurd rfl g2
        | fragPoisoned hp => cases hc; rw [hs] at hp; cases hp
        | fragBig hB hq _ => exact (hbad hB hq).elim
        | fragFull hB hq _ => exact (hbad hB hq).elim
        | fragStore hB hq _ => exact (hbad hB hq).elim
      · rintro ⟨y, h⟩; unfold IsFirst at h; rw [ha] at h; cases h
      · intro hn _
        have hne : k0 ≠ k := by rintro rfl; exact hn ha
        refine follows_all k fw as st.inv h3 ?_ hl hs hv hd' hr'
        unfold Keeps
        rw [st.other k (by simp [keyOf, hne])]
        exact hk'
    | first k0 fw0 =>
      obtain ⟨ft1, v, out, g1, st, g2⟩ := finish_first i a h1 k0 fw0
      have e1 : handle ft a = .ok (ft1, v, out.injected) := by simp only [handle, ha, Res.ok_bind, g1]
      obtain ⟨ws, rfl, hr'⟩ := run_cons e1 hr
      simp only [List.zip_cons_cons, Spec.E2E.Follows]
      refine ⟨?_, ?_, ?_⟩
      · intro h; unfold IsLater at h; rw [ha] at h; cases h
      · rintro ⟨y, h⟩ hin
        unfold IsFirst at h
        rw [ha] at h
        cases h
        have hself := st.self k rfl
        unfold Keeps at hk'
        rw [if_pos hin] at hk'
        have hk2 : view ft (timeOf (.first a.now k fw0 a.newOk)) k = some e := hk'
        rw [hk2] at hself
        have hnext : view ft1 a.now k = some { e with last := a.now } → Spec.E2E.Follows k fw T a.now (as.zip ws) := by
          intro hv'
          exact follows_all k fw as (e := { e with last := a.now }) st.inv h3 (by unfold Keeps; exact hv'.trans (if_pos (Nat.le_add_right _ _)).symm) rfl hs hv hd' hr'
        have hb : view ft1 (timeOf (.first a.now k fw0 a.newOk)) k = view ft1 a.now k := rfl
        rw [hb] at hself
        generalize view ft1 a.now k = b at hself hnext
        generalize hc : some e = c at hself
        cases hself with
        | firstFail => cases hc
        | firstOk hB hq =>
          rcases hB with hB | ⟨hB, _⟩
          · rw [← hc] at hB; cases hB; rw [hs] at hq; cases hq
          · rw [← hc] at hB; cases hB
        | firstRefuse _ =>
          cases hc
          rcases g2 with ⟨g2, _⟩ | ⟨_, g2⟩
          · simp at g2
          · exact ⟨g2, hnext rfl⟩
      · intro _ hn
        have hne : k0 ≠ k := by rintro rfl; exact hn _ ha
        refine follows_all k fw as st.inv h3 ?_ hl hs hv hd' hr'
        unfold Keeps
        rw [st.other k (by simp [keyOf, hne])]
        exact hk'

end Nfqlb.E2E
