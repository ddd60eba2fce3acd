import Verif.Proof.FragEvents

/-! The invariant of the fragment table. -/

set_option autoImplicit false

namespace Nfqlb.Frag

open Nfqlb.Ct (Ct Ev Slot vals fv Quiet NZ liveT TInv chains)
open Nfqlb.Spec (Stored)

/-- Of the objects in `L` those without other reference. -/
def dead (ft : Ft) (L : List Nat) : List Nat := L.filter (fun v => decide ((ft.objs v).ref = 1))

/-- What does not change. -/
structure Same (ft ft' : Ft) : Prop where
  mtu : ft'.mtu = ft.mtu
  reass : ft'.reass = ft.reass

theorem Same.refl (ft : Ft) : Same ft ft := ⟨rfl, rfl⟩

theorem Same.trans {a b c : Ft} (h1 : Same a b) (h2 : Same b c) : Same a c := ⟨h2.mtu.trans h1.mtu, h2.reass.trans h1.reass⟩

/-- The reference of the tracker to the objects in `L` was dropped. -/
structure Released (ft ft' : Ft) (L : List Nat) : Prop where
  objs : ∀ v, ft'.objs v = if v ∈ L then { ft.objs v with ref := (ft.objs v).ref - 1 } else ft.objs v
  free : ft'.freeObjs.Perm (dead ft L ++ ft.freeObjs)
  frags : ft'.fragsFree = ft.fragsFree + ((dead ft L).map (fun v => (ft.objs v).stored.length)).sum
  gone : ft'.gone.Perm ((dead ft L).flatMap (fun v => (ft.objs v).stored) ++ ft.gone)
  disc : ft.fragsDiscarded = u32 ft.gone.length → ft'.fragsDiscarded = u32 ft'.gone.length
  ct : ft'.ct = ft.ct
  same : Same ft ft'
  alloc : ft'.fragsAllocated = ft.fragsAllocated

theorem Released.nil (ft : Ft) : Released ft ft [] where
  objs := by simp
  free := by simp [dead]
  frags := by simp [dead]
  gone := by simp [dead]
  disc := id
  ct := rfl
  same := Same.refl ft
  alloc := rfl

theorem u32_u32_add (a b : Nat) : u32 (u32 a + b) = u32 (b + a) := by unfold u32; omega

/-- `fragDataUnlock` -/
theorem unlock_released (ft : Ft) (v : Nat) : Released ft (unlock ft v) [v] ∧ (unlock ft v).bucketsFree = ft.bucketsFree := by
  have hobj : ∀ w, (setObj ft v { ft.objs v with ref := (ft.objs v).ref - 1 }).objs w =
      if w ∈ [v] then { ft.objs w with ref := (ft.objs w).ref - 1 } else ft.objs w := by
    intro w
    by_cases h : w = v
    · subst h; simp [setObj]
    · simp [setObj, h]
  by_cases h : (ft.objs v).ref = 1
  · have hd : dead ft [v] = [v] := by simp [dead, h]
    have he : unlock ft v = { discard (setObj ft v { ft.objs v with ref := (ft.objs v).ref - 1 }) (ft.objs v).stored with
        freeObjs := v :: ft.freeObjs } := by
      simp [unlock, setObj, discard, h]
    rw [he]
    refine ⟨⟨hobj, by rw [hd]; simp, by rw [hd]; simp [discard, setObj], by rw [hd]; simp [discard, setObj], ?_, rfl, ⟨rfl, rfl⟩, rfl⟩, rfl⟩
    intro hh
    simp only [discard, setObj]
    rw [hh, List.length_append]
    exact u32_u32_add _ _
  · have hd : dead ft [v] = [] := by simp [dead, h]
    have he : unlock ft v = setObj ft v { ft.objs v with ref := (ft.objs v).ref - 1 } := by
      have : ¬ ((ft.objs v).ref - 1 = 0) := by omega
      simp [unlock, setObj, this]
    rw [he]
    refine ⟨⟨hobj, by rw [hd]; simp [setObj], by rw [hd]; simp [setObj], by rw [hd]; simp [setObj], ?_, rfl, ⟨rfl, rfl⟩, rfl⟩, rfl⟩
    intro hh
    exact hh

theorem filter_congr' {α : Type} {p q : α → Bool} : ∀ {l : List α}, (∀ a ∈ l, p a = q a) → l.filter p = l.filter q
  | [], _ => rfl
  | a :: l, h => by
    simp only [List.filter_cons, h a (by simp)]
    rw [filter_congr' (fun b hb => h b (List.mem_cons_of_mem _ hb))]

theorem map_congr' {α β : Type} {f g : α → β} : ∀ {l : List α}, (∀ a ∈ l, f a = g a) → l.map f = l.map g
  | [], _ => rfl
  | a :: l, h => by
    simp only [List.map_cons, h a (by simp)]
    rw [map_congr' (fun b hb => h b (List.mem_cons_of_mem _ hb))]

theorem flatMap_congr' {α β : Type} {f g : α → List β} : ∀ {l : List α}, (∀ a ∈ l, f a = g a) → l.flatMap f = l.flatMap g
  | [], _ => rfl
  | a :: l, h => by
    simp only [List.flatMap_cons, h a (by simp)]
    rw [flatMap_congr' (fun b hb => h b (List.mem_cons_of_mem _ hb))]

theorem Released.trans {a b c : Ft} {L M : List Nat} (h1 : Released a b L) (h2 : Released b c M) (hd : ∀ v ∈ M, v ∉ L) :
    Released a c (L ++ M) := by
  have ho : ∀ v ∈ M, b.objs v = a.objs v := by
    intro v hv
    rw [h1.objs v, if_neg (hd v hv)]
  have hdead : dead a (L ++ M) = dead a L ++ dead b M := by
    unfold dead
    rw [List.filter_append]
    congr 1
    apply filter_congr'
    intro v hv
    rw [ho v hv]
  have hmem : ∀ v ∈ dead b M, v ∈ M := fun v hv => (List.mem_filter.1 hv).1
  refine ⟨?_, ?_, ?_, ?_, fun h => h2.disc (h1.disc h), h2.ct.trans h1.ct, h1.same.trans h2.same, h2.alloc.trans h1.alloc⟩
  · intro v
    rw [h2.objs v]
    by_cases hm : v ∈ M
    · have := hd v hm
      rw [if_pos hm, ho v hm, if_pos (by simp [hm])]
    · rw [if_neg hm, h1.objs v]
      by_cases hl : v ∈ L
      · rw [if_pos hl, if_pos (by simp [hl])]
      · rw [if_neg hl, if_neg (by simp [hl, hm])]
  · rw [hdead]
    refine h2.free.trans ?_
    refine ((List.Perm.refl _).append h1.free).trans ?_
    rw [← List.append_assoc]
    exact List.Perm.append_right _ List.perm_append_comm
  · rw [hdead, h2.frags, h1.frags, List.map_append, List.sum_append]
    rw [map_congr' (f := fun v => (b.objs v).stored.length) (g := fun v => (a.objs v).stored.length) (fun v hv => by rw [ho v (hmem v hv)])]
    omega
  · rw [hdead, List.flatMap_append]
    refine h2.gone.trans ?_
    rw [flatMap_congr' (f := fun v => (b.objs v).stored) (g := fun v => (a.objs v).stored) (fun v hv => by rw [ho v (hmem v hv)])]
    refine ((List.Perm.refl _).append h1.gone).trans ?_
    rw [← List.append_assoc]
    exact List.Perm.append_right _ List.perm_append_comm

/-- The functions to free something, called by the tracker. -/
theorem onEvents_quiet : ∀ (evs : List Ev) (ft : Ft), Quiet evs → (fv evs).Nodup →
    Released ft (onEvents ft evs) (fv evs) ∧ (onEvents ft evs).bucketsFree = ft.bucketsFree + evs.count .freeBucket
  | [], ft, _, _ => ⟨Released.nil ft, rfl⟩
  | e :: evs, ft, hq, hn => by
    have hq' : Quiet evs := fun x hx => hq x (List.mem_cons_of_mem _ hx)
    rcases hq e (by simp) with rfl | ⟨v, w, rfl⟩
    · have hn' : (fv evs).Nodup := by simpa [fv] using hn
      have := onEvents_quiet evs (onEvent ft .freeBucket) hq' hn'
      have hr : Released ft (onEvent ft .freeBucket) [] :=
        { objs := by simp [onEvent], free := by simp [dead, onEvent], frags := by simp [dead, onEvent], gone := by simp [dead, onEvent],
          disc := fun h => h, ct := rfl, same := ⟨rfl, rfl⟩, alloc := rfl }
      refine ⟨?_, ?_⟩
      · have h2 := hr.trans this.1 (by simp)
        exact h2
      · have h2 := this.2
        simp only [onEvents, List.foldl_cons] at h2 ⊢
        rw [h2]
        simp [onEvent]
        omega
    · have hfv : fv (Ev.free v w :: evs) = v :: fv evs := rfl
      rw [hfv] at hn ⊢
      have hn' := (List.nodup_cons.1 hn).2
      have hv := (List.nodup_cons.1 hn).1
      have := onEvents_quiet evs (unlock ft v) hq' hn'
      have hu := unlock_released ft v
      refine ⟨?_, ?_⟩
      · have h2 := hu.1.trans this.1 (fun x hx => by simp; rintro rfl; exact hv hx)
        exact h2
      · have h2 := this.2
        simp only [onEvents, List.foldl_cons, onEvent] at h2 ⊢
        rw [h2, hu.2]
        simp

theorem onEvents_append (ft : Ft) (a b : List Ev) : onEvents ft (a ++ b) = onEvents (onEvents ft a) b := by
  simp [onEvents, List.foldl_append]

theorem perm_sum {l l' : List Nat} (h : l.Perm l') : l.sum = l'.sum := by
  induction h with
  | nil => rfl
  | cons x _ ih => simp [ih]
  | swap x y l => simp; omega
  | trans _ _ ih1 ih2 => rw [ih1, ih2]

/-- All fragments that are stored. -/
def storedAll (ft : Ft) : List Nat := (vals ft.ct).flatMap (fun v => (ft.objs v).stored)

/-- Memory in use, of the objects in the list. -/
def sizeOf (ft : Ft) (L : List Nat) : Nat := (L.map (fun v => (ft.objs v).stored.length)).sum

/-- The invariant between operations (`h = 0`) and while an operation has a reference to the object `h`. `N`, `MB`, `MF` are the sizes of the pools, `T` is the ttl. -/
structure FInv (N MB MF T : Nat) (ft : Ft) (t h : Nat) : Prop where
  ctI : Ct.Inv ft.ct
  tinv : TInv ft.ct t
  ttl : ft.ct.ttl = T
  ttlE : ∀ s, Stored ft.ct s → s.ttl = T
  perm : (vals ft.ct ++ ft.freeObjs).Perm (List.range' 1 N)
  ref : ∀ v ∈ vals ft.ct, (ft.objs v).ref = if v = h then 2 else 1
  frags : ft.fragsFree + sizeOf ft (vals ft.ct) = MF
  bkt : ft.bucketsFree + chains ft.ct = MB
  disc : ft.fragsDiscarded = u32 ft.gone.length

theorem FInv.nodup {N MB MF T : Nat} {ft : Ft} {t h : Nat} (i : FInv N MB MF T ft t h) : (vals ft.ct ++ ft.freeObjs).Nodup :=
  i.perm.nodup_iff.2 (List.nodup_range' (s := 1) (n := N))

theorem FInv.vnodup {N MB MF T : Nat} {ft : Ft} {t h : Nat} (i : FInv N MB MF T ft t h) : (vals ft.ct).Nodup :=
  (List.nodup_append.1 i.nodup).1

theorem FInv.free_fresh {N MB MF T : Nat} {ft : Ft} {t h : Nat} (i : FInv N MB MF T ft t h) {f : Nat} (hf : f ∈ ft.freeObjs) :
    f ∉ vals ft.ct ∧ f ≠ 0 := by
  refine ⟨fun h => (List.nodup_append.1 i.nodup).2.2 f h f hf rfl, ?_⟩
  have := i.perm.mem_iff.1 (List.mem_append_right _ hf)
  rw [List.mem_range'_1] at this
  omega

/-- The fragments stored by the objects in the list. -/
def stAll (ft : Ft) (L : List Nat) : List Nat := L.flatMap (fun v => (ft.objs v).stored)

/-- The part of the invariant about the objects: `V` are the objects in use. -/
structure OInv (N MF : Nat) (V : List Nat) (ft : Ft) (h : Nat) : Prop where
  perm : (V ++ ft.freeObjs).Perm (List.range' 1 N)
  ref : ∀ v ∈ V, (ft.objs v).ref = if v = h then 2 else 1
  frags : ft.fragsFree + sizeOf ft V = MF
  disc : ft.fragsDiscarded = u32 ft.gone.length

theorem OInv.vnodup {N MF : Nat} {V : List Nat} {ft : Ft} {h : Nat} (i : OInv N MF V ft h) : V.Nodup :=
  (List.nodup_append.1 (i.perm.nodup_iff.2 (List.nodup_range' (s := 1) (n := N)))).1

theorem FInv.toO {N MB MF T : Nat} {ft : Ft} {t h : Nat} (i : FInv N MB MF T ft t h) : OInv N MF (vals ft.ct) ft h :=
  ⟨i.perm, i.ref, i.frags, i.disc⟩

/-- What an operation of the tracker does to the table, `h` being the object to which there is a reference. -/
theorem ct_step {N MF : Nat} {V V' : List Nat} {ft : Ft} {h : Nat} (i : OInv N MF V ft h) {ct' : Ct} {ev : List Ev} (hq : Quiet ev)
    (hp : (V' ++ fv ev).Perm (V)) :
    let ft' := onEvents { ft with ct := ct' } ev
    let D := (fv ev).filter (fun v => decide (v = h))
    (∀ v, v ∉ fv ev → ft'.objs v = ft.objs v) ∧
    (∀ v, v ∈ fv ev → ft'.objs v = { ft.objs v with ref := (ft.objs v).ref - 1 }) ∧
    ft'.ct = ct' ∧ Same ft ft' ∧ ft'.fragsAllocated = ft.fragsAllocated ∧
    (V' ++ D ++ ft'.freeObjs).Perm (List.range' 1 N) ∧
    ft'.fragsFree + sizeOf ft' (V') + sizeOf ft D = MF ∧
    (ft'.gone ++ stAll ft' V' ++ D.flatMap (fun v => (ft.objs v).stored)).Perm (ft.gone ++ stAll ft V) ∧
    ft'.fragsDiscarded = u32 ft'.gone.length ∧
    ft'.bucketsFree = ft.bucketsFree + ev.count .freeBucket := by
  intro ft' D
  have hnd : (V' ++ fv ev).Nodup := hp.nodup_iff.2 i.vnodup
  have hn := List.nodup_append.1 hnd
  obtain ⟨hR, hB⟩ := onEvents_quiet ev { ft with ct := ct' } hq hn.2.1
  have hmem : ∀ v ∈ fv ev, v ∈ V := fun v hv => hp.mem_iff.1 (List.mem_append_right _ hv)
  have hnot : ∀ v ∈ V', v ∉ fv ev := fun v h1 h2 => hn.2.2 v h1 v h2 rfl
  have hdead : dead { ft with ct := ct' } (fv ev) = (fv ev).filter (fun v => !decide (v = h)) := by
    unfold dead
    apply filter_congr'
    intro v hv
    have := i.ref v (hmem v hv)
    by_cases he : v = h
    · simp [he] at this ⊢; omega
    · simp [he] at this ⊢; omega
  have hsplit : (D ++ (fv ev).filter (fun v => !decide (v = h))).Perm (fv ev) := List.filter_append_perm _ _
  have ho : ∀ v, v ∉ fv ev → ft'.objs v = ft.objs v := by
    intro v hv
    have := hR.objs v
    rw [if_neg hv] at this
    exact this
  have ho2 : ∀ v, v ∈ fv ev → ft'.objs v = { ft.objs v with ref := (ft.objs v).ref - 1 } := by
    intro v hv
    have := hR.objs v
    rw [if_pos hv] at this
    exact this
  have hct : ft'.ct = ct' := hR.ct
  have hsz : sizeOf ft' (V') = sizeOf ft (V') := by
    unfold sizeOf
    rw [map_congr' (fun v hv => by rw [ho v (hnot v hv)])]
  refine ⟨ho, ho2, hct, ⟨hR.same.mtu, hR.same.reass⟩, hR.alloc, ?_, ?_, ?_, ?_, hB⟩
  · refine List.Perm.trans ?_ i.perm
    have h1 := hR.free
    rw [hdead] at h1
    rw [List.perm_iff_count] at h1 hsplit hp ⊢
    intro a
    have e1 := h1 a
    have e2 := hsplit a
    have e3 := hp a
    simp only [List.count_append] at e1 e2 e3 ⊢
    have e5 : List.count a ft'.freeObjs = _ := e1
    rw [e5]
    omega
  · have h1 := hR.frags
    rw [hdead] at h1
    have h2 := i.frags
    have h3 : sizeOf ft (V) = sizeOf ft (V') + sizeOf ft (fv ev) := by
      unfold sizeOf
      rw [← perm_sum (hp.map _), List.map_append, List.sum_append]
    have h4 : sizeOf ft (fv ev) = sizeOf ft D + sizeOf ft ((fv ev).filter (fun v => !decide (v = h))) := by
      unfold sizeOf
      rw [← perm_sum (hsplit.map _), List.map_append, List.sum_append]
    unfold sizeOf at h3 h4 hsz h2 ⊢
    simp only at h1
    have h5 : ft'.fragsFree = _ := h1
    rw [h5, hsz]
    omega
  · have h1 := hR.gone
    rw [hdead] at h1
    have h3 := hp.flatMap_right (fun v => (ft.objs v).stored)
    have h4 := hsplit.flatMap_right (fun v => (ft.objs v).stored)
    rw [List.flatMap_append] at h3 h4
    have h6 : stAll ft' V' = (V').flatMap (fun v => (ft.objs v).stored) := by
      unfold stAll
      exact flatMap_congr' (fun v hv => by rw [ho v (hnot v hv)])
    rw [h6]
    unfold stAll
    rw [List.perm_iff_count] at h1 h3 h4 ⊢
    intro a
    have e1 := h1 a
    have e3 := h3 a
    have e4 := h4 a
    simp only [List.count_append] at e1 e3 e4 ⊢
    have e5 : List.count a ft'.gone = _ := e1
    rw [e5]
    omega
  · exact hR.disc i.disc

/-- The same if there is no reference to an object that is given up. -/
theorem ct_stepO {N MF : Nat} {V V' : List Nat} {ft : Ft} {h : Nat} (i : OInv N MF V ft h) {ct' : Ct} {ev : List Ev} (hq : Quiet ev)
    (hp : (V' ++ fv ev).Perm V) (hh : h ∉ fv ev) :
    let ft' := onEvents { ft with ct := ct' } ev
    OInv N MF V' ft' h ∧ (∀ v, v ∉ fv ev → ft'.objs v = ft.objs v) ∧ (∀ v ∈ V', ft'.objs v = ft.objs v) ∧ ft'.ct = ct' ∧ Same ft ft' ∧
      ft'.fragsAllocated = ft.fragsAllocated ∧ (ft'.gone ++ stAll ft' V').Perm (ft.gone ++ stAll ft V) ∧
      ft'.bucketsFree = ft.bucketsFree + ev.count .freeBucket := by
  intro ft'
  obtain ⟨c1, c2, c3, c4, c5, c6, c7, c8, c9, c10⟩ := ct_step (ct' := ct') i hq hp
  have hD : (fv ev).filter (fun v => decide (v = h)) = [] := by
    rw [List.filter_eq_nil_iff]
    intro v hv
    simp only [decide_eq_true_eq]
    rintro rfl
    exact hh hv
  rw [hD] at c6 c7 c8
  have hnd : (V' ++ fv ev).Nodup := hp.nodup_iff.2 i.vnodup
  have hn := List.nodup_append.1 hnd
  have hobj : ∀ v ∈ V', ft'.objs v = ft.objs v := fun v hv => c1 v (fun h2 => hn.2.2 v hv v h2 rfl)
  refine ⟨⟨by simpa using c6, ?_, by simpa [sizeOf] using c7, c9⟩, c1, hobj, c3, c4, c5, by simpa using c8, c10⟩
  intro v hv
  have hv' : v ∈ V := hp.mem_iff.1 (List.mem_append_left _ hv)
  have : ft'.objs v = ft.objs v := hobj v hv
  rw [this]
  exact i.ref v hv'

/-- The same if there is no reference to an object that is given up. -/
theorem ct_step' {N MB MF T : Nat} {ft : Ft} {t h : Nat} (i : FInv N MB MF T ft t h) {ct' : Ct} {ev : List Ev} {now : Nat} (hq : Quiet ev)
    (hp : (vals ct' ++ fv ev).Perm (vals ft.ct)) (hh : h ∉ fv ev) (hI : Ct.Inv ct') (hT : TInv ct' now) (httl : ct'.ttl = ft.ct.ttl)
    (httlE : ∀ s, Stored ct' s → s.ttl = T) (hch : chains ct' + ev.count .freeBucket = chains ft.ct) :
    let ft' := onEvents { ft with ct := ct' } ev
    FInv N MB MF T ft' now h ∧ (∀ v, v ∉ fv ev → ft'.objs v = ft.objs v) ∧ (∀ v ∈ vals ct', ft'.objs v = ft.objs v) ∧ ft'.ct = ct' ∧ Same ft ft' ∧
      ft'.fragsAllocated = ft.fragsAllocated ∧ (ft'.gone ++ storedAll ft').Perm (ft.gone ++ storedAll ft) := by
  intro ft'
  obtain ⟨c0, c1, c2, c3, c4, c5, c6, c7⟩ := ct_stepO (ct' := ct') i.toO hq hp hh
  refine ⟨⟨by rw [c3]; exact hI, by rw [c3]; exact hT, by rw [c3, httl]; exact i.ttl, by rw [c3]; exact httlE, by rw [c3]; exact c0.perm,
    by rw [c3]; exact c0.ref, by rw [c3]; exact c0.frags, ?_, c0.disc⟩, c1, c2, c3, c4, c5, ?_⟩
  · have h1 := i.bkt
    have h2 : ft'.bucketsFree = _ := c7
    rw [c3, h2]
    omega
  · unfold storedAll
    have h3 : ft'.ct = ct' := c3
    rw [h3]
    exact c6

end Nfqlb.Frag
