import Verif.Proof.FragTable

/-! Each operation of the fragment table. -/

set_option autoImplicit false

namespace Nfqlb.Frag

open Nfqlb.Ct (Ct Ev Slot vals fv Quiet NZ liveT TInv chains TEff)
open Nfqlb.Spec (Stored)

variable {N MB MF T : Nat}

theorem upd_size (f : Nat → Obj) (v : Nat) (o : Obj) : ∀ (L : List Nat), L.Nodup → v ∈ L →
    (L.map (fun w => (if w = v then o else f w).stored.length)).sum + (f v).stored.length =
      (L.map (fun w => (f w).stored.length)).sum + o.stored.length
  | [], _, h => by cases h
  | a :: L, hn, h => by
    have hn' := List.nodup_cons.1 hn
    by_cases ha : a = v
    · subst ha
      have : (L.map (fun w => (if w = a then o else f w).stored.length)) = L.map (fun w => (f w).stored.length) :=
        map_congr' (fun w hw => by rw [if_neg (by rintro rfl; exact hn'.1 hw)])
      simp only [List.map_cons, List.sum_cons, this, if_true]
      omega
    · have hm : v ∈ L := by
        rcases List.mem_cons.1 h with h | h
        · exact absurd h.symm ha
        · exact h
      have := upd_size f v o L hn'.2 hm
      simp only [List.map_cons, List.sum_cons, if_neg ha]
      omega

theorem upd_flat (f : Nat → Obj) (v : Nat) (o : Obj) : ∀ (L : List Nat), L.Nodup → v ∈ L →
    (L.flatMap (fun w => (if w = v then o else f w).stored) ++ (f v).stored).Perm
      (o.stored ++ L.flatMap (fun w => (f w).stored))
  | [], _, h => by cases h
  | a :: L, hn, h => by
    have hn' := List.nodup_cons.1 hn
    by_cases ha : a = v
    · subst ha
      have : (L.flatMap (fun w => (if w = a then o else f w).stored)) = L.flatMap (fun w => (f w).stored) :=
        flatMap_congr' (fun w hw => by rw [if_neg (by rintro rfl; exact hn'.1 hw)])
      simp only [List.flatMap_cons, this, if_true]
      rw [List.perm_iff_count]
      intro x
      simp only [List.count_append]
      omega
    · have hm : v ∈ L := by
        rcases List.mem_cons.1 h with h | h
        · exact absurd h.symm ha
        · exact h
      have := upd_flat f v o L hn'.2 hm
      simp only [List.flatMap_cons, if_neg ha]
      rw [List.perm_iff_count] at this ⊢
      intro x
      have := this x
      simp only [List.count_append] at this ⊢
      omega

/-- Changing an object that is stored. -/
theorem upd_inv {ft : Ft} {t h h' v : Nat} (i : FInv N MB MF T ft t h) (hv : v ∈ vals ft.ct) (hh : h = v ∨ h = 0) (hh' : h' = v ∨ h' = 0)
    {ft' : Ft} {o : Obj} (hct : ft'.ct = ft.ct) (hobj : ∀ w, ft'.objs w = if w = v then o else ft.objs w) (hfree : ft'.freeObjs = ft.freeObjs)
    (hb : ft'.bucketsFree = ft.bucketsFree) (href : o.ref = if v = h' then 2 else 1)
    (hf : ft'.fragsFree + o.stored.length = ft.fragsFree + (ft.objs v).stored.length) (hd : ft'.fragsDiscarded = u32 ft'.gone.length) :
    FInv N MB MF T ft' t h' ∧ (storedAll ft' ++ (ft.objs v).stored).Perm (o.stored ++ storedAll ft) := by
  have hz := Ct.zero_notin_vals ft.ct
  have hfun : ft'.objs = fun w => if w = v then o else ft.objs w := funext hobj
  refine ⟨⟨by rw [hct]; exact i.ctI, by rw [hct]; exact i.tinv, by rw [hct]; exact i.ttl, by rw [hct]; exact i.ttlE, by rw [hct, hfree]; exact i.perm,
    ?_, ?_, by rw [hct, hb]; exact i.bkt, hd⟩, ?_⟩
  · rw [hct]
    intro w hw
    rw [hobj w]
    by_cases he : w = v
    · subst he; rw [if_pos rfl]; exact href
    · rw [if_neg he]
      have hw0 : w ≠ 0 := fun h0 => hz (h0 ▸ hw)
      have h1 := i.ref w hw
      rw [if_neg (by rcases hh with rfl | rfl; exact he; exact hw0)] at h1
      rw [h1, if_neg (by rcases hh' with rfl | rfl; exact he; exact hw0)]
  · have h1 := i.frags
    have h2 := upd_size ft.objs v o (vals ft.ct) i.vnodup hv
    rw [hct]
    unfold sizeOf at h1 ⊢
    rw [hfun]
    simp only
    omega
  · unfold storedAll
    rw [hct, hfun]
    exact upd_flat ft.objs v o (vals ft.ct) i.vnodup hv

theorem perm_cancel {A S B : List Nat} (h : (A ++ S).Perm (S ++ B)) : A.Perm B := by
  rw [List.perm_iff_count] at h ⊢
  intro x
  have := h x
  simp only [List.count_append] at this
  omega

theorem lock_inv {ft : Ft} {t v : Nat} (i : FInv N MB MF T ft t 0) (hv : v ∈ vals ft.ct) :
    FInv N MB MF T (lock ft v) t v ∧ (lock ft v).objs v = { ft.objs v with ref := 2 } ∧ (∀ w, w ≠ v → (lock ft v).objs w = ft.objs w) ∧
      (storedAll (lock ft v)).Perm (storedAll ft) := by
  have hz : v ≠ 0 := fun h0 => Ct.zero_notin_vals ft.ct (h0 ▸ hv)
  have hr : (ft.objs v).ref = 1 := by have := i.ref v hv; rw [if_neg hz] at this; exact this
  have ho : (lock ft v).objs v = { ft.objs v with ref := 2 } := by simp [lock, setObj, hr]
  obtain ⟨h1, h2⟩ := upd_inv (h' := v) (ft' := lock ft v) (o := { ft.objs v with ref := 2 }) i hv (.inr rfl) (.inl rfl) rfl
    (by intro w; simp only [lock, setObj, hr]; rfl) rfl rfl (by simp) rfl i.disc
  refine ⟨h1, ho, fun w hw => by simp [lock, setObj, hw], ?_⟩
  rw [List.perm_iff_count] at h2 ⊢
  intro x
  have := h2 x
  simp only [List.count_append] at this
  omega

theorem unlock_inv {ft : Ft} {t v : Nat} (i : FInv N MB MF T ft t v) (hv : v ∈ vals ft.ct) :
    FInv N MB MF T (unlock ft v) t 0 ∧ unlock ft v = setObj ft v { ft.objs v with ref := 1 } ∧
      (storedAll (unlock ft v)).Perm (storedAll ft) := by
  have hz : v ≠ 0 := fun h0 => Ct.zero_notin_vals ft.ct (h0 ▸ hv)
  have hr : (ft.objs v).ref = 2 := by have := i.ref v hv; rw [if_pos rfl] at this; exact this
  have he : unlock ft v = setObj ft v { ft.objs v with ref := 1 } := by simp [unlock, setObj, hr]
  rw [he]
  obtain ⟨h1, h2⟩ := upd_inv (h' := 0) (ft' := setObj ft v { ft.objs v with ref := 1 }) (o := { ft.objs v with ref := 1 }) i hv (.inl rfl) (.inr rfl) rfl
    (by intro w; simp only [setObj]) rfl rfl (by simp [hz]) rfl i.disc
  exact ⟨h1, rfl, perm_cancel h2⟩

/-! ### The tracker -/

theorem TEff.ttlE {ct ct' : Ct} {now : Nat} {k : Key} {ev : List Ev} {n : Nat} {after : Option Slot} {add : Option Nat}
    (e : TEff ct ct' now k ev n after add) (h : ∀ s, Stored ct s → s.ttl = T) (ha : ∀ s, after = some s → s.ttl = T) :
    ∀ s, Stored ct' s → s.ttl = T := by
  intro s hs
  obtain ⟨⟨b, hb, hm⟩, hd⟩ := Ct.stored_iff.1 hs
  rcases e.sub b hb s hm hd with ⟨b0, hb0, hs0⟩ | ⟨_, _, h2⟩
  · exact h s (Ct.stored_iff.2 ⟨⟨b0, hb0, hs0⟩, hd⟩)
  · exact ha s h2

theorem quiet_alloc {ev : List Ev} (h : Quiet ev) : ev.count (.alloc true) = 0 := by
  apply List.count_eq_zero_of_not_mem
  intro hm
  rcases h _ hm with h | ⟨_, _, h⟩ <;> simp at h

theorem chains_eff {ct ct' : Ct} {now : Nat} {k : Key} {ev : List Ev} {n : Nat} {after : Option Slot} {add : Option Nat}
    (e : TEff ct ct' now k ev n after add) : chains ct' + ev.count .freeBucket = chains ct + ev.count (.alloc true) := e.chain

theorem live_mem {ct : Ct} {now : Nat} {k : Key} {s : Slot} (h : liveT ct now k = some s) : s.data ∈ vals ct :=
  Ct.mem_vals.2 ⟨s, (Ct.stored_of_live h).1, rfl⟩

theorem TEff.sub' {ct ct' : Ct} {now : Nat} {k : Key} {ev : List Ev} {n : Nat} {after : Option Slot} {add : Option Nat}
    (e : TEff ct ct' now k ev n after add) (s : Slot) (hs : Stored ct' s) (hk : s.key ≠ k) : Stored ct s := by
  obtain ⟨⟨b, hb, hm⟩, hd⟩ := Ct.stored_iff.1 hs
  rcases e.sub b hb s hm hd with h | ⟨h, _⟩
  · exact Ct.stored_iff.2 ⟨h, hd⟩
  · exact absurd h hk

theorem TEff.own' {ct ct' : Ct} {now : Nat} {k : Key} {ev : List Ev} {n : Nat} {after : Option Slot} {add : Option Nat}
    (e : TEff ct ct' now k ev n after add) (ha : ∀ s, after = some s → Ct.stale s now = false) (s : Slot) (hs : Stored ct' s) (hk : s.key = k) :
    liveT ct' now k = some s := by
  obtain ⟨⟨b, hb, hm⟩, hd⟩ := Ct.stored_iff.1 hs
  have h := e.own b hb s hm hd hk
  rw [e.self, h, Option.filter_some, ha s h]
  rfl

theorem chains_le {ct : Ct} (hI : Ct.Inv ct) : chains ct ≤ (vals ct).length := by
  have h : ∀ l : List Ct.Bucket, (∀ b ∈ l, Ct.BInv b) → Ct.sumT (fun b => b.chain.length) l ≤ (l.flatMap (fun b => ((Ct.slots b).filter (fun s => decide (s.data ≠ 0))).map Slot.data)).length := by
    intro l
    induction l with
    | nil => intro _; simp [Ct.sumT]
    | cons b l ih =>
      intro hb
      have h1 := ih (fun x hx => hb x (List.mem_cons_of_mem _ hx))
      have h2 : b.chain.filter (fun s => decide (s.data ≠ 0)) = b.chain := by
        rw [List.filter_eq_self]
        intro s hs
        simpa using (hb b (by simp)).data s hs
      have h3 : b.chain.length ≤ ((Ct.slots b).filter (fun s => decide (s.data ≠ 0))).length := by
        unfold Ct.slots
        rw [List.filter_cons, h2]
        split <;> simp
      simp only [Ct.sumT, List.map_cons, List.sum_cons, List.flatMap_cons, List.length_append, List.length_map] at h1 ⊢
      omega
  refine Nat.le_trans (h ct.buckets ?_) (Nat.le_of_eq ?_)
  · intro b hb
    obtain ⟨i, hi⟩ := List.getElem?_of_mem hb
    exact (hI.bkt i b hi).1
  · unfold vals Ct.allSlots
    generalize ct.buckets = l
    induction l with
    | nil => rfl
    | cons b l ih =>
      simp only [List.flatMap_cons, List.length_append, List.filter_append, List.map_append, List.length_map] at ih ⊢
      omega

theorem fresh_now {s : Slot} {now : Nat} (h : s.refered = now) : Ct.stale s now = false := by
  subst h
  unfold Ct.stale Ct.sub64
  simp

/-- What all operations of the tracker have in common, for the table. -/
structure Ok (N MB MF T : Nat) (ft ft' : Ft) (now : Nat) (k : Key) (h : Nat) : Prop where
  inv : FInv N MB MF T ft' now h
  other : ∀ k', k' ≠ k → liveT ft'.ct now k' = liveT ft.ct now k'
  objs : ∀ v ∈ vals ft'.ct, v ≠ h → ft'.objs v = ft.objs v
  same : Same ft ft'
  alloc : ft'.fragsAllocated = ft.fragsAllocated
  acc : (ft'.gone ++ storedAll ft').Perm (ft.gone ++ storedAll ft)
  sub : ∀ s, Stored ft'.ct s → s.key ≠ k → Stored ft.ct s
  own : ∀ s, Stored ft'.ct s → s.key = k → liveT ft'.ct now k = some s

theorem ctLookup_spec {ft : Ft} {t : Nat} (i : FInv N MB MF T ft t 0) {now : Nat} (hle : t ≤ now) (k : Key) :
    ∃ ft' v, ctLookup ft now k = .ok (ft', v) ∧ Ok N MB MF T ft ft' now k v ∧
      ((∃ s, liveT ft.ct now k = some s ∧ s.data = v ∧ v ≠ 0 ∧ liveT ft'.ct now k = some { s with refered := now } ∧
          ft'.objs v = { ft.objs v with ref := 2 }) ∨
       (liveT ft.ct now k = none ∧ v = 0 ∧ liveT ft'.ct now k = none)) := by
  obtain ⟨ct', v, ev, n, h1, -, h3⟩ := Ct.lookup_cases i.ctI now k
  obtain ⟨s1, ev0, s2, s3⟩ := Ct.lookup_shape h1
  have hnz := Ct.step_nz (Ct.step_of h1)
  have hT := i.tinv.mono hle
  have hfresh : ∀ (s : Slot), s.refered ≤ now → Ct.stale s now = false ∨ True := fun _ _ => .inr trivial
  clear hfresh
  rcases h3 with ⟨s, a1, a2, a3, e⟩ | ⟨a1, a2, e⟩
  · have hev : ev = ev0 ++ [.lock v] := by
      rcases s3 with ⟨h0, _⟩ | h
      · exact absurd h0 a3
      · exact h.2
    have hfv : fv ev = fv ev0 := by rw [hev, Ct.fv_append]; simp [fv]
    have hp := e.perm hnz (by simp)
    simp only [Option.toList_none, List.nil_append, hfv] at hp
    have hch := chains_eff e
    rw [hev, List.count_append, List.count_append, quiet_alloc s2] at hch
    simp only [List.count_singleton] at hch
    have hst := (Ct.stored_of_live a1)
    obtain ⟨c1, -, c2, c3, c4, c5, c6⟩ := ct_step' (now := now) i s2 hp (fun h0 => Ct.zero_notin_fv hnz (hfv ▸ h0)) e.inv (e.tinv hT) s1
      (TEff.ttlE e i.ttlE (by rintro _ ⟨⟩; exact i.ttlE s hst.1)) (by simpa using hch)
    have hself := e.self
    have hst2 : Ct.stale { s with refered := now } now = false := by
      unfold Ct.stale Ct.sub64
      simp
    rw [Option.filter_some, hst2] at hself
    simp only [Bool.not_false, if_true] at hself
    have hv' : v ∈ vals ct' := by
      have := live_mem hself
      simp only [a2] at this
      exact this
    obtain ⟨d1, d2, d3, d4⟩ := lock_inv c1 (by rw [c3]; exact hv')
    have hrun : onEvents { ft with ct := ct' } ev = lock (onEvents { ft with ct := ct' } ev0) v := by
      rw [hev, onEvents_append]; rfl
    refine ⟨lock (onEvents { ft with ct := ct' } ev0) v, v, ?_, ⟨d1, ?_, ?_, ⟨c4.mtu, c4.reass⟩, c5, ?_, ?_, ?_⟩, .inl ⟨s, a1, a2, a3, ?_, ?_⟩⟩
    · unfold ctLookup
      rw [h1]
      simp only [Res.ok_bind, Res.pure_eq, hrun]
    · intro k' hk
      have : (lock (onEvents { ft with ct := ct' } ev0) v).ct = ct' := c3
      rw [this]
      exact e.live k' hk now (.inr rfl)
    · intro w hw hne
      rw [d3 w hne]
      have : (lock (onEvents { ft with ct := ct' } ev0) v).ct = ct' := c3
      rw [this] at hw
      exact c2 w hw
    · have := c6
      rw [List.perm_iff_count] at this d4 ⊢
      intro x
      have e1 := this x
      have e2 := d4 x
      simp only [List.count_append] at e1 e2 ⊢
      have : (lock (onEvents { ft with ct := ct' } ev0) v).gone = (onEvents { ft with ct := ct' } ev0).gone := rfl
      rw [this]
      omega
    · have : (lock (onEvents { ft with ct := ct' } ev0) v).ct = ct' := c3
      rw [this]
      exact TEff.sub' e
    · have : (lock (onEvents { ft with ct := ct' } ev0) v).ct = ct' := c3
      rw [this]
      exact TEff.own' e (by rintro _ ⟨⟩; exact fresh_now rfl)
    · have : (lock (onEvents { ft with ct := ct' } ev0) v).ct = ct' := c3
      rw [this]
      exact hself
    · rw [d2, c2 v hv']
  · have hev : ev = ev0 := by
      rcases s3 with ⟨_, h⟩ | h
      · exact h
      · exact absurd a2 h.1
    subst hev
    subst a2
    have hp := e.perm hnz (by simp)
    simp only [Option.toList_none, List.nil_append] at hp
    have hch := chains_eff e
    rw [quiet_alloc s2] at hch
    obtain ⟨c1, -, c2, c3, c4, c5, c6⟩ := ct_step' (now := now) i s2 hp (fun h0 => Ct.zero_notin_fv hnz h0) e.inv (e.tinv hT) s1
      (TEff.ttlE e i.ttlE (by rintro _ ⟨⟩)) (by simpa using hch)
    refine ⟨onEvents { ft with ct := ct' } ev, 0, ?_, ⟨c1, ?_, ?_, c4, c5, c6, by rw [c3]; exact TEff.sub' e, by rw [c3]; exact TEff.own' e (by rintro _ ⟨⟩)⟩, .inr ⟨a1, rfl, ?_⟩⟩
    · unfold ctLookup
      rw [h1]
      simp only [Res.ok_bind, Res.pure_eq]
    · intro k' hk
      rw [c3]
      exact e.live k' hk now (.inr rfl)
    · intro w hw _
      rw [c3] at hw
      exact c2 w hw
    · rw [c3]
      exact e.self

/-- Allocating a bucket in the tracker. -/
theorem onAlloc {ft : Ft} {X : List Ev} (h : X = [] ∨ X = [.alloc true] ∨ X = [.alloc false]) (hb : X = [.alloc true] → 0 < ft.bucketsFree) :
    (onEvents ft X).ct = ft.ct ∧ (onEvents ft X).objs = ft.objs ∧ (onEvents ft X).freeObjs = ft.freeObjs ∧ (onEvents ft X).fragsFree = ft.fragsFree ∧
      (onEvents ft X).gone = ft.gone ∧ (onEvents ft X).fragsDiscarded = ft.fragsDiscarded ∧ Same ft (onEvents ft X) ∧
      (onEvents ft X).fragsAllocated = ft.fragsAllocated ∧ (onEvents ft X).bucketsFree + X.count (.alloc true) = ft.bucketsFree ∧
      X.count .freeBucket = 0 ∧ fv X = [] := by
  rcases h with rfl | rfl | rfl
  · exact ⟨rfl, rfl, rfl, rfl, rfl, rfl, Same.refl _, rfl, rfl, rfl, rfl⟩
  · refine ⟨rfl, rfl, rfl, rfl, rfl, rfl, ⟨rfl, rfl⟩, rfl, ?_, rfl, rfl⟩
    have := hb rfl
    simp only [onEvents, List.foldl_cons, List.foldl_nil, onEvent, List.count_singleton]
    simp
    omega
  · exact ⟨rfl, rfl, rfl, rfl, rfl, rfl, ⟨rfl, rfl⟩, rfl, rfl, rfl, rfl⟩

/-- Giving up the last reference to an object. -/
theorem unlock_drop' {ft : Ft} {f : Nat} {V : List Nat} (i : OInv N MF (f :: V) ft 0) (hf : f ≠ 0) :
    OInv N MF V (unlock ft f) 0 ∧ (∀ w, w ≠ f → (unlock ft f).objs w = ft.objs w) ∧ (unlock ft f).ct = ft.ct ∧
      (unlock ft f).gone = (ft.objs f).stored ++ ft.gone ∧
      Same ft (unlock ft f) ∧ (unlock ft f).fragsAllocated = ft.fragsAllocated ∧ (unlock ft f).bucketsFree = ft.bucketsFree := by
  have hr : (ft.objs f).ref = 1 := by have := i.ref f (by simp); rw [if_neg hf] at this; exact this
  have hfr := i.frags
  have hd := i.disc
  have hnd := List.nodup_cons.1 i.vnodup
  have hobj : ∀ w, w ≠ f → (unlock ft f).objs w = ft.objs w := by
    intro w hw
    simp [unlock, setObj, hr, discard, hw]
  have hu : (unlock ft f).freeObjs = f :: ft.freeObjs ∧ (unlock ft f).fragsFree = ft.fragsFree + (ft.objs f).stored.length ∧
      (unlock ft f).gone = (ft.objs f).stored ++ ft.gone ∧
      (unlock ft f).fragsDiscarded = u32 (ft.fragsDiscarded + (ft.objs f).stored.length) := by
    simp [unlock, setObj, hr, discard]
  have hne : ∀ w ∈ V, w ≠ f := by rintro w hw rfl; exact hnd.1 hw
  refine ⟨⟨?_, ?_, ?_, ?_⟩, hobj, ?_, hu.2.2.1, ?_, ?_, ?_⟩
  · rw [hu.1]
    refine List.Perm.trans ?_ i.perm
    simp only [List.cons_append]
    exact List.perm_middle
  · intro v hv
    rw [hobj v (hne v hv)]
    exact i.ref v (by simp [hv])
  · rw [hu.2.1]
    unfold sizeOf at hfr ⊢
    rw [map_congr' (fun v hv => by rw [hobj v (hne v hv)])]
    simp only [List.map_cons, List.sum_cons] at hfr
    omega
  · rw [hu.2.2.2, hu.2.2.1, hd, List.length_append]
    unfold u32
    omega
  · simp [unlock, setObj, hr, discard]
  · constructor <;> simp [unlock, setObj, hr, discard]
  · simp [unlock, setObj, hr, discard]
  · simp [unlock, setObj, hr, discard]

/-- Giving back an object that was not stored. -/
theorem unlock_drop {ft : Ft} {f : Nat} {V : List Nat} (i : OInv N MF (f :: V) ft 0) (hf : f ≠ 0) (hs : (ft.objs f).stored = []) :
    OInv N MF V (unlock ft f) 0 ∧ (∀ w, w ≠ f → (unlock ft f).objs w = ft.objs w) ∧ (unlock ft f).ct = ft.ct ∧ (unlock ft f).gone = ft.gone ∧
      Same ft (unlock ft f) ∧ (unlock ft f).fragsAllocated = ft.fragsAllocated ∧ (unlock ft f).bucketsFree = ft.bucketsFree := by
  have := unlock_drop' i hf
  rw [hs, List.nil_append] at this
  exact this

/-- `ctInsert` of a new object. -/
theorem ctInsert_spec {ft : Ft} {now f : Nat} (hI : Ct.Inv ft.ct) (hT : TInv ft.ct now) (httl : ft.ct.ttl = T) (httlE : ∀ s, Stored ft.ct s → s.ttl = T)
    (i : OInv N MF (f :: vals ft.ct) ft 0) (hb : ft.bucketsFree + chains ft.ct = MB) (hf : f ≠ 0) (hs : (ft.objs f).stored = []) {k : Key}
    (hl : liveT ft.ct now k = none) :
    ∃ ft' r, ctInsert ft now k f = .ok (ft', r) ∧ Ct.Inv ft'.ct ∧ TInv ft'.ct now ∧ ft'.ct.ttl = T ∧ (∀ s, Stored ft'.ct s → s.ttl = T) ∧
      ft'.bucketsFree + chains ft'.ct = MB ∧ (∀ k', k' ≠ k → liveT ft'.ct now k' = liveT ft.ct now k') ∧ Same ft ft' ∧
      ft'.fragsAllocated = ft.fragsAllocated ∧ ft'.objs f = ft.objs f ∧ (∀ v ∈ vals ft'.ct, v ∈ f :: vals ft.ct) ∧
      (∀ s, Stored ft'.ct s → s.key ≠ k → Stored ft.ct s) ∧ (∀ s, Stored ft'.ct s → s.key = k → liveT ft'.ct now k = some s) ∧
      ((r = 0 ∧ OInv N MF (vals ft'.ct) ft' 0 ∧ f ∈ vals ft'.ct ∧ (∀ v ∈ vals ft'.ct, ft'.objs v = ft.objs v) ∧
          liveT ft'.ct now k = some { key := k, data := f, ttl := T, refered := now } ∧
          (ft'.gone ++ stAll ft' (vals ft'.ct)).Perm (ft.gone ++ stAll ft (vals ft.ct))) ∨
       (r = -1 ∧ OInv N MF (f :: vals ft'.ct) ft' 0 ∧ (∀ v ∈ vals ft'.ct, ft'.objs v = ft.objs v) ∧ liveT ft'.ct now k = none ∧
          (ft'.gone ++ stAll ft' (vals ft'.ct)).Perm (ft.gone ++ stAll ft (vals ft.ct)) ∧ MB ≤ (vals ft'.ct).length)) := by
  obtain ⟨b, hbk, hok⟩ := Ct.bucket_exists hI k
  obtain ⟨ct', r, ev, n, c, h1, -, -, h3⟩ := Ct.insert_cases hI now k ft.ct.ttl f hf (decide (0 < ft.bucketsFree + (Ct.prepare b now).2.1.count .freeBucket))
  obtain ⟨s1, s2⟩ := Ct.insert_shape hf hok h1
  have hnz := Ct.step_nz (Ct.step_insert h1)
  have hq := Ct.prepare_quiet b now
  obtain ⟨X, hX, hev, hXa⟩ : ∃ X, (X = [] ∨ X = [Ev.alloc true] ∨ X = [Ev.alloc false]) ∧ ev = (Ct.prepare b now).2.1 ++ X ∧
      (X = [.alloc true] → 0 < ft.bucketsFree + (Ct.prepare b now).2.1.count .freeBucket) := by
    rcases s2 with h | ⟨h, h'⟩ | ⟨h, h'⟩
    · exact ⟨[], .inl rfl, by rw [h]; simp, by simp⟩
    · exact ⟨[.alloc true], .inr (.inl rfl), h', fun _ => by simpa using h⟩
    · exact ⟨[.alloc false], .inr (.inr rfl), h', by simp⟩
  have hfvX : fv X = [] := by rcases hX with rfl | rfl | rfl <;> rfl
  have hcX : X.count .freeBucket = 0 := by rcases hX with rfl | rfl | rfl <;> rfl
  have hfv : fv ev = fv (Ct.prepare b now).2.1 := by rw [hev, Ct.fv_append, hfvX]; simp
  have hrun : ctInsert ft now k f = .ok (onEvents (onEvents { ft with ct := ct' } (Ct.prepare b now).2.1) X, r) := by
    unfold ctInsert bucketRoom Ct.insert
    rw [hok]
    simp only [Res.ok_bind, Res.pure_eq]
    rw [h1]
    simp only [Res.ok_bind, hev, onEvents_append]
  have hz0 : 0 ∉ fv (Ct.prepare b now).2.1 := fun h0 => Ct.zero_notin_fv hnz (hfv ▸ h0)
  have hstd : ∀ V' : List Nat, (V' ++ fv (Ct.prepare b now).2.1).Perm (f :: vals ft.ct) → chains ct' + ev.count .freeBucket = chains ft.ct + ev.count (.alloc true) →
      let ft' := onEvents (onEvents { ft with ct := ct' } (Ct.prepare b now).2.1) X
      OInv N MF V' ft' 0 ∧ (∀ v ∈ V', ft'.objs v = ft.objs v) ∧ ft'.ct = ct' ∧ Same ft ft' ∧ ft'.fragsAllocated = ft.fragsAllocated ∧
        (ft'.gone ++ stAll ft' V').Perm (ft.gone ++ stAll ft (vals ft.ct)) ∧ ft'.bucketsFree + chains ct' = MB ∧
        (decide (0 < ft.bucketsFree + (Ct.prepare b now).2.1.count .freeBucket) = false → ft'.bucketsFree = 0) := by
    intro V' hp hch ft'
    obtain ⟨c0, c1, c2, c3, c4, c5, c6, c7⟩ := ct_stepO (ct' := ct') i hq hp hz0
    obtain ⟨a1, a2, a3, a4, a5, a6, a7, a8, a9, a10, -⟩ := onAlloc (ft := onEvents { ft with ct := ct' } (Ct.prepare b now).2.1) hX (fun h => by rw [c7]; exact hXa h)
    refine ⟨⟨by rw [a3]; exact c0.perm, by rw [a2]; exact c0.ref, ?_, by rw [a6, a5]; exact c0.disc⟩, by rw [a2]; exact c2, by rw [a1]; exact c3,
      c4.trans a7, by rw [a8]; exact c5, ?_, ?_, ?_⟩
    · have := c0.frags
      unfold sizeOf at this ⊢
      rw [a4, a2]
      exact this
    · have h8 : stAll ft (f :: vals ft.ct) = stAll ft (vals ft.ct) := by
        unfold stAll; rw [List.flatMap_cons, hs, List.nil_append]
      rw [h8] at c6
      unfold stAll at c6 ⊢
      rw [a5, a2]
      exact c6
    · rw [hev, List.count_append, List.count_append, quiet_alloc hq, hcX] at hch
      have h9 : ft'.bucketsFree + _ = _ := a9
      omega
    · intro h0
      have h9 : ft'.bucketsFree + _ = _ := a9
      simp only [decide_eq_false_iff_not] at h0
      have c8 : (onEvents { ft with ct := ct' } (Ct.prepare b now).2.1).bucketsFree = ft.bucketsFree + (Ct.prepare b now).2.1.count .freeBucket := c7
      omega
  have hch' := fun (after add) (e : TEff ft.ct ct' now k ev n after add) => chains_eff e
  rcases h3 with ⟨s, a1, _⟩ | ⟨_, a2, e⟩ | ⟨_, a2, a3, _, e⟩
  · rw [hl] at a1; simp at a1
  · have hp := e.perm hnz (by simp [hf])
    simp only [Option.toList_some, List.singleton_append, hfv] at hp
    obtain ⟨d1, d2, d3, d4, d5, d6, d7, -⟩ := hstd (vals ct') hp (hch' _ _ e)
    have hself := e.self
    have hst2 : Ct.stale { key := k, data := f, ttl := ft.ct.ttl, refered := now } now = false := by
      unfold Ct.stale Ct.sub64
      simp
    rw [Option.filter_some, hst2] at hself
    simp only [Bool.not_false, if_true, httl] at hself
    have hmem : f ∈ vals ct' := live_mem hself
    refine ⟨_, r, hrun, by rw [d3]; exact e.inv, by rw [d3]; exact e.tinv hT, by rw [d3, s1]; exact httl,
      by rw [d3]; exact TEff.ttlE e httlE (by rintro _ ⟨⟩; exact httl), by rw [d3]; exact d7, by rw [d3]; exact fun k' hk => e.live k' hk now (.inr rfl), d4, d5, d2 f hmem,
      by rw [d3]; exact fun v hv => hp.mem_iff.1 (List.mem_append_left _ hv),
      by rw [d3]; exact TEff.sub' e, by rw [d3]; exact TEff.own' e (by rintro _ ⟨⟩; exact fresh_now rfl),
      .inl ⟨a2, by rw [d3]; exact d1, by rw [d3]; exact hmem, by rw [d3]; exact d2, by rw [d3]; exact hself, by rw [d3]; exact d6⟩⟩
  · have hp := e.perm hnz (by simp)
    simp only [Option.toList_none, List.nil_append, hfv] at hp
    obtain ⟨d1, d2, d3, d4, d5, d6, d7, d8⟩ := hstd (f :: vals ct') (hp.cons f) (hch' _ _ e)
    refine ⟨_, r, hrun, by rw [d3]; exact e.inv, by rw [d3]; exact e.tinv hT, by rw [d3, s1]; exact httl,
      by rw [d3]; exact TEff.ttlE e httlE (by rintro _ ⟨⟩), by rw [d3]; exact d7, by rw [d3]; exact fun k' hk => e.live k' hk now (.inr rfl), d4, d5, d2 f (by simp),
      by rw [d3]; exact fun v hv => List.mem_cons_of_mem _ (hp.mem_iff.1 (List.mem_append_left _ hv)),
      by rw [d3]; exact TEff.sub' e, by rw [d3]; exact TEff.own' e (by rintro _ ⟨⟩),
      .inr ⟨a2, by rw [d3]; exact d1, by rw [d3]; exact fun v hv => d2 v (by simp [hv]), by rw [d3]; exact e.self, ?_, ?_⟩⟩
    rotate_left
    · rw [d3]
      have := chains_le e.inv
      have := d8 a3
      omega
    rw [d3]
    have h8 := d6
    unfold stAll at h8 ⊢
    rw [List.flatMap_cons, d2 f (by simp), hs, List.nil_append] at h8
    exact h8

theorem fragDataLookup_spec {ft : Ft} {t : Nat} (i : FInv N MB MF T ft t 0) {now : Nat} (hle : t ≤ now) (k : Key) (newOk : Bool) :
    ∃ ft' v, fragDataLookup ft now k newOk = .ok (ft', v) ∧ Ok N MB MF T ft ft' now k v ∧
      ((∃ s, liveT ft.ct now k = some s ∧ s.data = v ∧ v ≠ 0 ∧ liveT ft'.ct now k = some { s with refered := now } ∧
          ft'.objs v = { ft.objs v with ref := 2 }) ∨
       (liveT ft.ct now k = none ∧ v ≠ 0 ∧ liveT ft'.ct now k = some { key := k, data := v, ttl := T, refered := now } ∧
          (ft'.objs v).state = .storing ∧ (ft'.objs v).stored = []) ∨
       (liveT ft.ct now k = none ∧ v = 0 ∧ liveT ft'.ct now k = none ∧ (MB ≤ (vals ft'.ct).length ∨ N ≤ (vals ft'.ct).length))) := by
  obtain ⟨ft1, v, h1, o1, h2⟩ := ctLookup_spec i hle k
  unfold fragDataLookup
  rw [h1]
  simp only [Res.ok_bind, Res.pure_eq]
  rcases h2 with ⟨s, a1, a2, a3, a4, a5⟩ | ⟨a1, a2, a3⟩
  · rw [if_pos a3]
    exact ⟨ft1, v, rfl, o1, .inl ⟨s, a1, a2, a3, a4, a5⟩⟩
  · subst a2
    rw [if_neg (by simp)]
    cases hfree : ft1.freeObjs with
    | nil =>
      refine ⟨ft1, 0, rfl, o1, .inr (.inr ⟨a1, rfl, a3, .inr ?_⟩)⟩
      have := o1.inv.perm.length_eq
      rw [hfree] at this
      simp only [List.append_nil, List.length_range'] at this
      omega
    | cons f rest =>
      simp only
      obtain ⟨hf1, hf0⟩ := o1.inv.free_fresh (f := f) (by rw [hfree]; simp)
      generalize hob : ({ ft1.objs f with ref := 1, state := FState.storing, stored := [], asm := if ft1.reass = true then newOk else (ft1.objs f).asm } : Obj) = ob
      have hob1 : ob.ref = 1 := by rw [← hob]
      have hob2 : ob.stored = [] := by rw [← hob]
      have hob3 : ob.state = .storing := by rw [← hob]
      generalize hft2 : setObj { ft1 with freeObjs := rest } f ob = ft2
      have e1 : ft2.ct = ft1.ct := by rw [← hft2]; rfl
      have e2 : ft2.freeObjs = rest := by rw [← hft2]; rfl
      have e3 : ∀ w, ft2.objs w = if w = f then ob else ft1.objs w := by rw [← hft2]; intro w; rfl
      have e4 : ft2.fragsFree = ft1.fragsFree := by rw [← hft2]; rfl
      have e5 : ft2.gone = ft1.gone := by rw [← hft2]; rfl
      have e6 : ft2.fragsDiscarded = ft1.fragsDiscarded := by rw [← hft2]; rfl
      have e7 : Same ft1 ft2 := by rw [← hft2]; exact ⟨rfl, rfl⟩
      have e8 : ft2.fragsAllocated = ft1.fragsAllocated := by rw [← hft2]; rfl
      have e9 : ft2.bucketsFree = ft1.bucketsFree := by rw [← hft2]; rfl
      have hne : ∀ w ∈ vals ft1.ct, w ≠ f := by rintro w hw rfl; exact hf1 hw
      have hO : OInv N MF (f :: vals ft2.ct) ft2 0 := by
        refine ⟨?_, ?_, ?_, by rw [e6, e5]; exact o1.inv.disc⟩
        · refine List.Perm.trans ?_ o1.inv.perm
          rw [e1, e2, hfree]
          exact List.perm_middle.symm
        · rw [e1]
          intro w hw
          rw [e3]
          rcases List.mem_cons.1 hw with rfl | hw
          · rw [if_pos rfl, if_neg hf0]; exact hob1
          · rw [if_neg (hne w hw)]; exact o1.inv.ref w hw
        · have := o1.inv.frags
          unfold sizeOf at this ⊢
          rw [e1, e4, List.map_cons, List.sum_cons, e3, if_pos rfl, hob2, map_congr' (fun v hv => by rw [e3, if_neg (hne v hv)])]
          simpa using this
      obtain ⟨ft3, r, b1, b2, b3, b4, b5, b6, b7, b8, b9, b10, b12, b13, b14, b11⟩ := ctInsert_spec (N := N) (MB := MB) (MF := MF) (T := T) (ft := ft2) (now := now) (f := f) (by rw [e1]; exact o1.inv.ctI)
        (by rw [e1]; exact o1.inv.tinv) (by rw [e1]; exact o1.inv.ttl) (by rw [e1]; exact o1.inv.ttlE) hO (by rw [e1, e9]; exact o1.inv.bkt) hf0
        (by rw [e3, if_pos rfl]; exact hob2) (k := k) (by rw [e1]; exact a3)
      rw [b1]
      simp only [Res.ok_bind]
      have hst : stAll ft2 (vals ft2.ct) = storedAll ft1 := by
        unfold stAll storedAll
        rw [e1]
        exact flatMap_congr' (fun v hv => by rw [e3, if_neg (hne v hv)])
      rcases b11 with ⟨c1, c2, c3, c4, c5, c6⟩ | ⟨c1, c2, c3, c4, c5, c6⟩
      · subst c1
        rw [if_pos rfl]
        have hinv : FInv N MB MF T ft3 now 0 := ⟨b2, b3, b4, b5, c2.perm, c2.ref, c2.frags, b6, c2.disc⟩
        obtain ⟨d1, d2, d3, d4⟩ := lock_inv hinv c3
        refine ⟨lock ft3 f, f, rfl, ⟨d1, ?_, ?_, ?_, ?_, ?_, fun s hs hk => o1.sub s (by rw [← e1]; exact b13 s hs hk) hk, b14⟩, .inr (.inl ⟨a1, hf0, c5, ?_, ?_⟩)⟩
        · intro k' hk
          have : liveT (lock ft3 f).ct now k' = liveT ft3.ct now k' := rfl
          rw [this, b7 k' hk, e1]
          exact o1.other k' hk
        · intro w hw hwf
          rw [d3 w hwf, c4 w hw, e3, if_neg hwf]
          have hw1 : w ∈ vals ft1.ct := by
            have := b12 w hw
            rw [e1] at this
            exact (List.mem_cons.1 this).resolve_left hwf
          exact o1.objs w hw1 (fun h0 => Ct.zero_notin_vals _ (h0 ▸ hw1))
        · exact (o1.same.trans e7).trans ⟨b8.mtu, b8.reass⟩
        · exact b9.trans (e8.trans o1.alloc)
        · rw [hst, e5] at c6
          have c7 : ((lock ft3 f).gone ++ storedAll (lock ft3 f)).Perm (ft3.gone ++ storedAll ft3) := List.Perm.append (List.Perm.refl _) d4
          exact c7.trans (List.Perm.trans c6 o1.acc)
        · rw [d2]; simp only; rw [b10, e3, if_pos rfl]; exact hob3
        · rw [d2]; simp only; rw [b10, e3, if_pos rfl]; exact hob2
      · subst c1
        rw [if_neg (by decide), if_neg (by decide)]
        have hs3 : (ft3.objs f).stored = [] := by rw [b10, e3, if_pos rfl]; exact hob2
        obtain ⟨d1, d2, d3, d4, d5, d6, d7⟩ := unlock_drop c2 hf0 hs3
        have hne3 : ∀ w ∈ vals ft3.ct, w ≠ f := by
          rintro w hw rfl
          exact (List.nodup_cons.1 c2.vnodup).1 hw
        refine ⟨unlock ft3 f, 0, rfl, ⟨⟨by rw [d3]; exact b2, by rw [d3]; exact b3, by rw [d3]; exact b4, by rw [d3]; exact b5, by rw [d3]; exact d1.perm,
          by rw [d3]; exact d1.ref, by rw [d3]; exact d1.frags, by rw [d3, d7]; exact b6, d1.disc⟩, ?_, ?_, ?_, ?_, ?_, by rw [d3]; exact fun s hs hk => o1.sub s (by rw [← e1]; exact b13 s hs hk) hk,
          by rw [d3]; exact b14⟩, .inr (.inr ⟨a1, rfl, ?_, ?_⟩)⟩
        · intro k' hk
          rw [d3, b7 k' hk, e1]
          exact o1.other k' hk
        · intro w hw hwf
          rw [d3] at hw
          rw [d2 w (hne3 w hw), c3 w hw, e3, if_neg (hne3 w hw)]
          have hw1 : w ∈ vals ft1.ct := by
            have := b12 w hw
            rw [e1] at this
            exact (List.mem_cons.1 this).resolve_left (hne3 w hw)
          exact o1.objs w hw1 hwf
        · exact ((o1.same.trans e7).trans b8).trans d5
        · exact d6.trans (b9.trans (e8.trans o1.alloc))
        · rw [hst, e5] at c5
          refine List.Perm.trans ?_ (List.Perm.trans c5 o1.acc)
          rw [d4]
          refine List.Perm.append (List.Perm.refl _) ?_
          unfold storedAll stAll
          rw [d3, flatMap_congr' (fun v hv => by rw [d2 v (hne3 v hv)])]
        · rw [d3]; exact c4
        · rw [d3]; exact .inl c6

end Nfqlb.Frag
