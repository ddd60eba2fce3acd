import Verif.Proof.FragSteps

/-! Histories of the fragment table. -/

set_option autoImplicit false

namespace Nfqlb.Frag

open Nfqlb.Ct (Ct Ev Slot vals fv Quiet NZ liveT TInv chains TEff)
open Nfqlb.Spec (Stored)
open Nfqlb.Spec.Frag

variable {N MB MF T : Nat}

theorem create_finv {hsize mb mf mtu t : Nat} {reass : Bool} (h : 0 < hsize) :
    FInv (u32 (hsize + mb)) mb mf (u32 (t * ms)) (create hsize mb mf mtu t reass) 0 0 := by
  have hv : vals (create hsize mb mf mtu t reass).ct = [] := by
    have : ∀ s, ¬ Stored (create hsize mb mf mtu t reass).ct s := by
      intro s hs
      obtain ⟨⟨b, hb, hm⟩, hd⟩ := Ct.stored_iff.1 hs
      have : b = _ := List.eq_of_mem_replicate hb
      rw [this] at hm
      simp [Ct.slots] at hm
      rw [hm] at hd
      simp at hd
    apply List.eq_nil_iff_forall_not_mem.2
    intro v hv
    obtain ⟨s, hs, _⟩ := Ct.mem_vals.1 hv
    exact this s hs
  refine ⟨Ct.create_inv h _, ?_, rfl, ?_, ?_, ?_, ?_, ?_, rfl⟩
  · intro b hb s hs hd
    have : b = _ := List.eq_of_mem_replicate hb
    rw [this] at hs
    simp [Ct.slots] at hs
    rw [hs] at hd
    simp at hd
  · intro s hs
    have : s.data ∈ vals (create hsize mb mf mtu t reass).ct := Ct.mem_vals.2 ⟨s, hs, rfl⟩
    rw [hv] at this
    cases this
  · rw [hv]
    exact List.Perm.refl _
  · rw [hv]
    intro v h
    cases h
  · rw [hv]; rfl
  · have : chains (create hsize mb mf mtu t reass).ct = 0 := by
      simp only [chains, Ct.sumT, create, Ct.create, List.map_replicate]
      induction hsize with
      | zero => rfl
      | succ n ih =>
        clear ih
        have : ∀ n, (List.replicate n 0).sum = 0 := by
          intro n; induction n with
          | zero => rfl
          | succ n ih => simp [List.replicate_succ, ih]
        simp
    rw [this]
    rfl

theorem view_advance {ft : Ft} {t t' : Nat} (i : FInv N MB MF T ft t 0) (hle : t ≤ t') (h64 : t' < 2 ^ 64) (k : Key) :
    view ft t' k = (view ft t k).filter (fun e => decide (t' ≤ e.last + T)) := by
  unfold view
  rw [Ct.liveT_advance i.tinv hle h64 k]
  cases h : liveT ft.ct t k with
  | none => rfl
  | some s =>
    have := i.ttlE s (Ct.stored_of_live h).1
    simp only [Option.filter_some, Option.map_some, this, ent]
    split <;> rfl

theorem Step.mtu {ft ft' : Ft} {op : Op} {out : Out} (s : Step N MB MF T ft ft' op out) : ft'.mtu = ft.mtu := s.same.mtu

/-- Running a list of operations. -/
theorem run_cons {ft ft1 : Ft} {op : Op} {out : Out} (h : step ft op = .ok (ft1, out)) {ops : List Op} {ft2 : Ft} {outs : List Out}
    (h2 : run ft (op :: ops) = .ok (ft2, outs)) : ∃ rs, outs = out :: rs ∧ run ft1 ops = .ok (ft2, rs) := by
  simp only [run, h, Res.ok_bind] at h2
  cases hr : run ft1 ops with
  | ok x =>
    obtain ⟨a, b⟩ := x
    rw [hr] at h2
    simp only [Res.ok_bind, Res.pure_eq, Res.ok.injEq, Prod.mk.injEq] at h2
    exact ⟨b, h2.2.symm, by rw [h2.1]⟩
  | die => rw [hr] at h2; simp at h2
  | ub => rw [hr] at h2; simp at h2
  | hang => rw [hr] at h2; simp at h2

theorem run_cons' {ft ft1 ft2 : Ft} {op : Op} {out : Out} (h : step ft op = .ok (ft1, out)) {ops : List Op} {rs : List Out}
    (h2 : run ft1 ops = .ok (ft2, rs)) : run ft (op :: ops) = .ok (ft2, out :: rs) := by
  simp only [run, h, h2, Res.ok_bind, Res.pure_eq]

/-- The clock after a list of operations. -/
def endTime : Nat → List Op → Nat
  | t, [] => t
  | _, o :: os => endTime (timeOf o) os

theorem run_spec : ∀ (ops : List Op) {ft : Ft} {t : Nat}, FInv N MB MF T ft t 0 → Timed t ops →
    ∃ ft' outs, run ft ops = .ok (ft', outs) ∧ outs.length = ops.length ∧ FInv N MB MF T ft' (endTime t ops) 0 ∧ ft'.mtu = ft.mtu ∧
      (((ops.zip outs).flatMap (fun x => x.2.injected)) ++ ft'.gone ++ storedAll ft').Perm
        ((((ops.zip outs).flatMap accepted).map Prod.snd) ++ ft.gone ++ storedAll ft)
  | [], ft, t, i, _ => ⟨ft, [], rfl, rfl, i, rfl, by simp⟩
  | o :: os, ft, t, i, ht => by
    obtain ⟨h1, h2, h3⟩ := ht
    obtain ⟨ft1, out, hs, st⟩ := step_all i o h1
    obtain ⟨ft2, outs, hr, hl, i2, hm, hp⟩ := run_spec os st.inv h3
    refine ⟨ft2, out :: outs, run_cons' hs hr, by simp [hl], i2, hm.trans st.mtu, ?_⟩
    have hp1 := st.acc
    rw [List.perm_iff_count] at hp hp1 ⊢
    intro x
    have e1 := hp x
    have e2 := hp1 x
    simp only [List.zip_cons_cons, List.flatMap_cons, List.map_append, List.count_append] at e1 e2 ⊢
    omega

theorem timed_append : ∀ (a b : List Op) (t : Nat), Timed t (a ++ b) ↔ Timed t a ∧ Timed (endTime t a) b
  | [], b, t => by simp [Timed, endTime]
  | o :: a, b, t => by simp [Timed, endTime, timed_append a b, and_assoc]

/-- Running two lists of operations. -/
theorem run_append : ∀ (a b : List Op) {ft ft' : Ft} {outs : List Out}, run ft (a ++ b) = .ok (ft', outs) →
    ∃ ft1 r1 r2, run ft a = .ok (ft1, r1) ∧ run ft1 b = .ok (ft', r2) ∧ outs = r1 ++ r2
  | [], b, ft, ft', outs, h => ⟨ft, [], outs, rfl, h, rfl⟩
  | o :: a, b, ft, ft', outs, h => by
    cases hs : step ft o with
    | ok x =>
      obtain ⟨ft1, out⟩ := x
      obtain ⟨rs, e1, e2⟩ := run_cons (ops := a ++ b) hs h
      obtain ⟨ft2, r1, r2, g1, g2, g3⟩ := run_append a b e2
      exact ⟨ft2, out :: r1, r2, run_cons' hs g1, g2, by rw [e1, g3]; rfl⟩
    | die => simp [run, hs] at h
    | ub => simp [run, hs] at h
    | hang => simp [run, hs] at h

/-- The entry of `k`, last used at `last`, if it has not expired. -/
def Keeps (ft : Ft) (t : Nat) (k : Key) (T last : Nat) (e : Entry) : Prop := view ft t k = if t ≤ last + T then some e else none

theorem Keeps.advance {ft : Ft} {t t' last : Nat} {k : Key} {e : Entry} (i : FInv N MB MF T ft t 0) (hle : t ≤ t') (h64 : t' < 2 ^ 64) (hl : e.last = last)
    (h : Keeps ft t k T last e) : Keeps ft t' k T last e := by
  unfold Keeps at h ⊢
  rw [view_advance i hle h64 k, h]
  by_cases h1 : t' ≤ last + T
  · rw [if_pos h1, if_pos (by omega), Option.filter_some, if_pos (by simp [hl, h1])]
  · rw [if_neg h1]
    by_cases h2 : t ≤ last + T
    · rw [if_pos h2, Option.filter_some, if_neg (by simp [hl, h1])]
    · rw [if_neg h2]; rfl

theorem follows_run (k : Key) (v : Int) : ∀ (ops : List Op) {ft ft' : Ft} {t last : Nat} {outs : List Out} {e : Entry}, FInv N MB MF T ft t 0 → Timed t ops →
    Keeps ft t k T last e → e.last = last → e.st = .hashValid → e.value = v → run ft ops = .ok (ft', outs) → Follows k v T last (ops.zip outs)
  | [], _, _, _, _, _, _, _, _, _, _, _, _, _ => by simp [Follows]
  | o :: os, ft, ft', t, last, outs, e, i, ht, hk, hl, hs, hv, hr => by
    obtain ⟨h1, h2, h3⟩ := ht
    obtain ⟨ft1, out, hst, st⟩ := step_all i o h1
    obtain ⟨rs, rfl, hr'⟩ := run_cons hst hr
    have hk' := hk.advance i h1 h2 hl
    simp only [List.zip_cons_cons, Follows]
    by_cases hko : keyOf o = some k
    · rw [if_pos hko]
      intro hin
      have hself := st.self k hko
      unfold Keeps at hk'
      rw [if_pos hin] at hk'
      rw [hk'] at hself
      have hnext : view ft1 (timeOf o) k = some { e with last := timeOf o } → Follows k v T (timeOf o) (os.zip rs) := by
        intro hv'
        exact follows_run k v os (e := { e with last := timeOf o }) st.inv h3 (by unfold Keeps; rw [if_pos (by omega)]; exact hv') rfl hs hv hr'
      generalize hb : view ft1 (timeOf o) k = b at hself hnext
      generalize ha : some e = a at hself
      cases hself with
      | firstFail => simp at ha
      | firstOk hB hq =>
        rcases hB with hB | ⟨hB, _⟩
        · rw [← ha, Option.some.injEq] at hB; subst hB; rw [hs] at hq; simp at hq
        · rw [← ha] at hB; simp at hB
      | firstRefuse hne => cases ha; exact ⟨⟨rfl, rfl⟩, .inr (hnext rfl)⟩
      | getNone => simp at ha
      | getOk _ => cases ha; exact ⟨⟨rfl, by rw [hv]⟩, .inr (hnext rfl)⟩
      | getRefuse hne => cases ha; exact absurd hs hne
      | fragFail => simp at ha
      | fragOk _ => cases ha; exact ⟨⟨rfl, by rw [hv]⟩, .inr (hnext rfl)⟩
      | fragDone _ => cases ha; exact ⟨⟨rfl, by rw [hv]⟩, .inl rfl⟩
      | fragPoisoned hp => cases ha; rw [hs] at hp; simp at hp
      | fragBig hB hq =>
        rcases hB with hB | ⟨hB, _⟩
        · rw [← ha, Option.some.injEq] at hB; subst hB; rw [hs] at hq; simp at hq
        · rw [← ha] at hB; simp at hB
      | fragFull hB hq =>
        rcases hB with hB | ⟨hB, _⟩
        · rw [← ha, Option.some.injEq] at hB; subst hB; rw [hs] at hq; simp at hq
        · rw [← ha] at hB; simp at hB
      | fragStore hB hq =>
        rcases hB with hB | ⟨hB, _⟩
        · rw [← ha, Option.some.injEq] at hB; subst hB; rw [hs] at hq; simp at hq
        · rw [← ha] at hB; simp at hB
    · rw [if_neg hko]
      refine follows_run k v os (e := e) st.inv h3 ?_ hl hs hv hr'
      unfold Keeps
      rw [st.other k hko]
      exact hk'

theorem refused_run (k : Key) : ∀ (ops : List Op) {ft ft' : Ft} {t last : Nat} {outs : List Out} {e : Entry}, FInv N MB MF T ft t 0 → Timed t ops →
    Keeps ft t k T last e → e.last = last → e.st = .poisoned → run ft ops = .ok (ft', outs) → Refused k T last (ops.zip outs)
  | [], _, _, _, _, _, _, _, _, _, _, _, _ => by simp [Refused]
  | o :: os, ft, ft', t, last, outs, e, i, ht, hk, hl, hs, hr => by
    obtain ⟨h1, h2, h3⟩ := ht
    obtain ⟨ft1, out, hst, st⟩ := step_all i o h1
    obtain ⟨rs, rfl, hr'⟩ := run_cons hst hr
    have hk' := hk.advance i h1 h2 hl
    simp only [List.zip_cons_cons, Refused]
    by_cases hko : keyOf o = some k
    · rw [if_pos hko]
      intro hin
      have hself := st.self k hko
      unfold Keeps at hk'
      rw [if_pos hin] at hk'
      rw [hk'] at hself
      have hnext : view ft1 (timeOf o) k = some { e with last := timeOf o } → Refused k T (timeOf o) (os.zip rs) := by
        intro hv'
        exact refused_run k os (e := { e with last := timeOf o }) st.inv h3 (by unfold Keeps; rw [if_pos (by omega)]; exact hv') rfl hs hr'
      generalize hb : view ft1 (timeOf o) k = b at hself hnext
      generalize ha : some e = a at hself
      cases hself with
      | firstFail => simp at ha
      | firstOk hB hq =>
        rcases hB with hB | ⟨hB, _⟩
        · rw [← ha, Option.some.injEq] at hB; subst hB; rw [hs] at hq; simp at hq
        · rw [← ha] at hB; simp at hB
      | firstRefuse hne => cases ha; exact ⟨⟨rfl, rfl, rfl⟩, hnext rfl⟩
      | getNone => simp at ha
      | getOk hh => cases ha; rw [hs] at hh; simp at hh
      | getRefuse hne => cases ha; exact ⟨⟨rfl, rfl, rfl⟩, hnext rfl⟩
      | fragFail => simp at ha
      | fragOk hh => cases ha; rw [hs] at hh; simp at hh
      | fragDone hh => cases ha; rw [hs] at hh; simp at hh
      | fragPoisoned hp => cases ha; exact ⟨⟨rfl, rfl, rfl⟩, hnext rfl⟩
      | fragBig hB hq =>
        rcases hB with hB | ⟨hB, _⟩
        · rw [← ha, Option.some.injEq] at hB; subst hB; rw [hs] at hq; simp at hq
        · rw [← ha] at hB; simp at hB
      | fragFull hB hq =>
        rcases hB with hB | ⟨hB, _⟩
        · rw [← ha, Option.some.injEq] at hB; subst hB; rw [hs] at hq; simp at hq
        · rw [← ha] at hB; simp at hB
      | fragStore hB hq =>
        rcases hB with hB | ⟨hB, _⟩
        · rw [← ha, Option.some.injEq] at hB; subst hB; rw [hs] at hq; simp at hq
        · rw [← ha] at hB; simp at hB
    · rw [if_neg hko]
      refine refused_run k os (e := e) st.inv h3 ?_ hl hs hr'
      unfold Keeps
      rw [st.other k hko]
      exact hk'

theorem waits_run (k : Key) (mtu : Nat) : ∀ (ops : List Op) {ft ft' : Ft} {t last : Nat} {outs : List Out} {e : Entry}, FInv N MB MF T ft t 0 → Timed t ops → ft.mtu = mtu →
    Keeps ft t k T last e → e.last = last → e.st = .storing → run ft ops = .ok (ft', outs) → Waits mtu k T last e.stored (ops.zip outs)
  | [], _, _, _, _, _, _, _, _, _, _, _, _, _ => by simp [Waits]
  | o :: os, ft, ft', t, last, outs, e, i, ht, hm, hk, hl, hs, hr => by
    obtain ⟨h1, h2, h3⟩ := ht
    obtain ⟨ft1, out, hst, st⟩ := step_all i o h1
    obtain ⟨rs, rfl, hr'⟩ := run_cons hst hr
    have hk' := hk.advance i h1 h2 hl
    simp only [List.zip_cons_cons]
    unfold Waits
    by_cases hko : keyOf o = some k
    · rw [if_pos hko]
      intro hin
      have hself := st.self k hko
      unfold Keeps at hk'
      rw [if_pos hin] at hk'
      rw [hk', hm] at hself
      have hnext : ∀ e' : Entry, view ft1 (timeOf o) k = some e' → e'.last = timeOf o → e'.st = .storing → Waits mtu k T (timeOf o) e'.stored (os.zip rs) := by
        intro e' hv' hl' hs'
        exact waits_run k mtu os (e := e') st.inv h3 (st.mtu.trans hm) (by unfold Keeps; rw [if_pos (by omega)]; exact hv') hl' hs' hr'
      have hbase : ∀ {now : Nat} {a : Option Entry} {e1 : Entry}, some e = a → Base now a e1 → e1 = e := by
        rintro now a e1 rfl (h | ⟨h, _⟩)
        · exact (Option.some.inj h).symm
        · simp at h
      generalize hb : view ft1 (timeOf o) k = b at hself hnext
      generalize ha : some e = a at hself
      cases hself with
      | firstFail => simp at ha
      | firstOk hB hq => exact ⟨rfl, by rw [hbase ha hB]⟩
      | firstRefuse hne => cases ha; exact absurd hs hne
      | getNone => simp at ha
      | getOk hh => cases ha; rw [hs] at hh; simp at hh
      | getRefuse hne => cases ha; have h9 := hnext _ rfl rfl hs; exact ⟨rfl, h9⟩
      | fragFail => simp at ha
      | fragOk hh => cases ha; rw [hs] at hh; simp at hh
      | fragDone hh => cases ha; rw [hs] at hh; simp at hh
      | fragPoisoned hp => cases ha; rw [hs] at hp; simp at hp
      | fragBig hB hq => have := hbase ha hB; subst this; have h9 := hnext _ rfl rfl hs; exact .inr ⟨rfl, fun _ => h9⟩
      | fragFull hB hst hlen => exact .inr ⟨rfl, fun h => by omega⟩
      | fragStore hB hq => have := hbase ha hB; subst this; exact .inl ⟨rfl, hnext _ rfl rfl rfl⟩
    · rw [if_neg hko]
      refine waits_run k mtu os (e := e) st.inv h3 (st.mtu.trans hm) ?_ hl hs hr'
      unfold Keeps
      rw [st.other k hko]
      exact hk'

/-- The fragments of a datagram. -/
def vstored (o : Option Entry) : List Nat := (o.map Entry.stored).getD []

theorem count_map_key (k : Key) (a : Nat) (l : List Nat) : (l.map (fun id => (k, id))).count (k, a) = l.count a := by
  induction l with
  | nil => rfl
  | cons x l ih =>
    simp only [List.map_cons, List.count_cons, ih]
    by_cases h : x = a <;> simp [h]

theorem count_other {k k' : Key} (h : k' ≠ k) (a : Nat) (l : List Nat) : (l.map (fun id => (k', id))).count (k, a) = 0 := by
  apply List.count_eq_zero_of_not_mem
  simp [h]

theorem delivered_step {ft ft' : Ft} {op : Op} {out : Out} (st : Step N MB MF T ft ft' op out) (k : Key) (a : Nat) :
    (delivered (op, out)).count (k, a) + (vstored (view ft' (timeOf op) k)).count a ≤
      (accepted (op, out)).count (k, a) + (vstored (view ft (timeOf op) k)).count a := by
  by_cases hko : keyOf op = some k
  · have hself := st.self k hko
    revert hself
    have hbase : ∀ {now : Nat} {x : Option Entry} {e1 : Entry}, Base now x e1 → vstored x = e1.stored := by
      rintro now x e1 (rfl | ⟨rfl, -, h, -⟩)
      · rfl
      · rw [h]; rfl
    generalize view ft' (timeOf op) k = y
    generalize view ft (timeOf op) k = x
    intro hself
    cases hself with
    | firstOk hB hq =>
      cases hko
      rw [hbase hB]
      simp [delivered, accepted, vstored, count_map_key]
    | fragFull hB hq =>
      cases hko
      rw [hbase hB]
      simp [delivered, accepted, vstored]
    | fragBig hB hq =>
      cases hko
      rw [hbase hB]
      simp [delivered, accepted, vstored]
    | fragStore hB hq =>
      cases hko
      rw [hbase hB]
      simp only [delivered, accepted, vstored, List.count_nil, if_true, Option.map_some, Option.getD_some, List.count_cons, Nat.zero_add]
      simp only [beq_iff_eq, Prod.mk.injEq, true_and]
      omega
    | _ =>
      simp [delivered, accepted, vstored]
  · rw [st.other k hko]
    have h1 : (delivered (op, out)).count (k, a) = 0 := by
      cases op with
      | first now k' v nok =>
        simp only [delivered]
        exact count_other (fun h => hko (by rw [h]; rfl)) a _
      | _ => rfl
    omega

theorem delivered_run (k : Key) (a : Nat) : ∀ (ops : List Op) {ft ft' : Ft} {t : Nat} {outs : List Out}, FInv N MB MF T ft t 0 → Timed t ops →
    run ft ops = .ok (ft', outs) →
    ((ops.zip outs).flatMap delivered).count (k, a) ≤ ((ops.zip outs).flatMap accepted).count (k, a) + (vstored (view ft t k)).count a
  | [], _, _, _, _, _, _, _ => by simp
  | o :: os, ft, ft', t, outs, i, ht, hr => by
    obtain ⟨h1, h2, h3⟩ := ht
    obtain ⟨ft1, out, hst, st⟩ := step_all i o h1
    obtain ⟨rs, rfl, hr'⟩ := run_cons hst hr
    have ih := delivered_run k a os st.inv h3 hr'
    have hd := delivered_step st k a
    have hadv : (vstored (view ft (timeOf o) k)).count a ≤ (vstored (view ft t k)).count a := by
      rw [view_advance i h1 h2 k]
      cases view ft t k with
      | none => simp
      | some e =>
        rw [Option.filter_some]
        split
        · exact Nat.le_refl _
        · simp [vstored]
    simp only [List.zip_cons_cons, List.flatMap_cons, List.count_append]
    omega

theorem flatMap_filter_if (f : Nat → List Nat) (L : List Slot) :
    ((L.filter (fun s => decide (s.data ≠ 0))).map Slot.data).flatMap f = L.flatMap (fun s => if s.data = 0 then [] else f s.data) := by
  induction L with
  | nil => rfl
  | cons s L ih =>
    by_cases h : s.data = 0
    · rw [List.filter_cons_of_neg (by simp [h]), ih, List.flatMap_cons, if_pos h, List.nil_append]
    · rw [List.filter_cons_of_pos (by simp [h]), List.map_cons, List.flatMap_cons, List.flatMap_cons, if_neg h, ih]

theorem waiting_eq (ft : Ft) : waiting ft = storedAll ft := by
  unfold waiting storedAll vals Ct.allSlots
  rw [flatMap_filter_if, List.flatMap_assoc]
  rfl

/-- Entry of `k` found in the answer of an operation. -/
theorem view_first {ft ft' : Ft} {now : Nat} {k : Key} {v : Int} {nok : Bool} {out : Out} (st : Step N MB MF T ft ft' (.first now k v nok) out) (h : out.rc = 0) :
    view ft' now k = some ⟨now, .hashValid, v, []⟩ := by
  have hself := st.self k rfl
  generalize hb : view ft' (timeOf (.first now k v nok)) k = b at hself
  generalize view ft (timeOf (.first now k v nok)) k = a at hself
  have hb' : view ft' now k = b := hb
  rw [hb']
  cases hself with
  | firstOk _ _ => rfl
  | firstFail => simp at h
  | firstRefuse _ => simp at h

theorem keeps_start {ft : Ft} {now T : Nat} {k : Key} {e : Entry} (h : view ft now k = some e) : Keeps ft now k T now e := by
  unfold Keeps
  rw [if_pos (Nat.le_add_right _ _)]
  exact h

theorem create_view {hsize mb mf mtu t : Nat} {reass : Bool} (h : 0 < hsize) (k : Key) : view (create hsize mb mf mtu t reass) 0 k = none := by
  have hc := create_finv (hsize := hsize) (mb := mb) (mf := mf) (mtu := mtu) (t := t) (reass := reass) h
  unfold view
  cases hl : Ct.liveT (create hsize mb mf mtu t reass).ct 0 k with
  | none => rfl
  | some s =>
    have hm := live_mem hl
    have h2 := hc.perm.length_eq
    rw [List.length_append, List.length_range'] at h2
    have h3 : (create hsize mb mf mtu t reass).freeObjs.length = u32 (hsize + mb) := List.length_range'
    have h4 := List.length_pos_of_mem hm
    omega

/-- Nothing waits for a datagram that is dropped. -/
def Empty (ft : Ft) (t : Nat) : Prop := ∀ k e, view ft t k = some e → e.st ≠ .storing → e.stored = []

theorem Empty.advance {ft : Ft} {t t' : Nat} (i : FInv N MB MF T ft t 0) (hle : t ≤ t') (h64 : t' < 2 ^ 64) (h : Empty ft t) : Empty ft t' := by
  intro k e hv hs
  rw [view_advance i hle h64 k, Option.filter_eq_some_iff] at hv
  exact h k e hv.1 hs

theorem Empty.step {ft ft' : Ft} {op : Op} {out : Out} (st : Step N MB MF T ft ft' op out) (h : Empty ft (timeOf op)) : Empty ft' (timeOf op) := by
  intro k e hv hs
  by_cases hko : keyOf op = some k
  · have hself := st.self k hko
    rw [hv] at hself
    have hk := h k
    revert hself hk
    generalize view ft (timeOf op) k = a
    generalize hb : some e = b
    intro hself hk
    cases hself with
    | firstFail => simp at hb
    | firstOk _ _ => cases hb; rfl
    | firstRefuse hne => cases hb; have h9 := hk _ rfl hne; exact h9
    | getNone => simp at hb
    | getOk hh => cases hb; have h9 := hk _ rfl (by rw [hh]; simp); exact h9
    | getRefuse hne => cases hb; have h9 := hk _ rfl hs; exact h9
    | fragFail => simp at hb
    | fragOk hh => cases hb; have h9 := hk _ rfl (by rw [hh]; simp); exact h9
    | fragDone hh => simp at hb
    | fragPoisoned hp => cases hb; have h9 := hk _ rfl (by rw [hp]; simp); exact h9
    | fragBig hB hq => cases hb; exact absurd hq hs
    | fragFull hB hq => cases hb; rfl
    | fragStore hB hq => cases hb; exact absurd rfl hs
  · rw [st.other k hko] at hv
    exact h k e hv hs

theorem empty_run : ∀ (ops : List Op) {ft ft' : Ft} {t : Nat} {outs : List Out}, FInv N MB MF T ft t 0 → Timed t ops → Empty ft t →
    run ft ops = .ok (ft', outs) → Empty ft' (endTime t ops)
  | [], _, _, _, _, _, _, h, hr => by
    simp only [run, Res.ok.injEq, Prod.mk.injEq] at hr
    rw [← hr.1]; exact h
  | o :: os, ft, ft', t, outs, i, ht, h, hr => by
    obtain ⟨h1, h2, h3⟩ := ht
    obtain ⟨ft1, out, hst, st⟩ := step_all i o h1
    obtain ⟨rs, rfl, hr'⟩ := run_cons hst hr
    exact empty_run os st.inv h3 ((h.advance i h1 h2).step st) hr'

/-- An entry in the tracker that has not expired is the one found. -/
theorem view_of_stored {ft : Ft} {now : Nat} (i : FInv N MB MF T ft now 0) (h64 : now < 2 ^ 64) {s : Slot} (hs : Stored ft.ct s) (hn : now ≤ s.refered + s.ttl) :
    view ft now s.key = some (ent s (ft.objs s.data)) := by
  obtain ⟨⟨b, hb, hm⟩, hd⟩ := Ct.stored_iff.1 hs
  have h1 := Ct.stale_false (i.tinv b hb s hm hd) h64
  have h2 : Ct.stale s now = false := by
    rw [decide_eq_true hn] at h1
    simpa using h1
  unfold view
  rw [Ct.live_of_stored i.ctI hs h2]
  rfl

/-- Operations about other datagrams. -/
theorem keeps_run (k : Key) : ∀ (ops : List Op) {ft ft' : Ft} {t last : Nat} {outs : List Out} {e : Entry}, FInv N MB MF T ft t 0 → Timed t ops →
    (∀ o ∈ ops, keyOf o ≠ some k) → Keeps ft t k T last e → e.last = last → run ft ops = .ok (ft', outs) → Keeps ft' (endTime t ops) k T last e
  | [], _, _, _, _, _, _, _, _, _, h, _, hr => by
    simp only [run, Res.ok.injEq, Prod.mk.injEq] at hr
    rw [← hr.1]; exact h
  | o :: os, ft, ft', t, last, outs, e, i, ht, hm, hk, hl, hr => by
    obtain ⟨h1, h2, h3⟩ := ht
    obtain ⟨ft1, out, hst, st⟩ := step_all i o h1
    obtain ⟨rs, rfl, hr'⟩ := run_cons hst hr
    refine keeps_run k os st.inv h3 (fun o ho => hm o (by simp [ho])) ?_ hl hr'
    unfold Keeps
    rw [st.other k (hm o (by simp))]
    exact hk.advance i h1 h2 hl

end Nfqlb.Frag
