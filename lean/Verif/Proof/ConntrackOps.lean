import Verif.Proof.Conntrack

set_option autoImplicit false

namespace Nfqlb.Ct

open Spec

/-! ### Counting -/

/-- Free events whose value satisfies `P`. -/
def freesP (P : Nat → Bool) (ev : List Ev) : Nat := ev.countP (fun e => match e with | .free w _ => P w | _ => false)

/-- Free events by the garbage collector. -/
def gcs (ev : List Ev) : Nat := ev.countP (fun e => match e with | .free _ .gc => true | _ => false)

/-- Slots of the bucket whose data satisfies `P`. -/
def cntB (P : Nat → Bool) (b : Bucket) : Nat := (slots b).countP (fun s => P s.data)

theorem frees_eq (v : Nat) (ev : List Ev) : frees v ev = freesP (fun w => decide (w = v)) ev := rfl

@[simp] theorem freesP_append (P : Nat → Bool) (a b : List Ev) : freesP P (a ++ b) = freesP P a + freesP P b := by
  unfold freesP; rw [List.countP_append]
@[simp] theorem gcs_append (a b : List Ev) : gcs (a ++ b) = gcs a + gcs b := by
  unfold gcs; rw [List.countP_append]
@[simp] theorem taken_append (a b : List Ev) : bucketsTaken (a ++ b) = bucketsTaken a + bucketsTaken b := by
  unfold bucketsTaken; rw [List.count_append]
@[simp] theorem returned_append (a b : List Ev) : bucketsReturned (a ++ b) = bucketsReturned a + bucketsReturned b := by
  unfold bucketsReturned; rw [List.count_append]
@[simp] theorem freesP_nil (P : Nat → Bool) : freesP P [] = 0 := rfl
@[simp] theorem gcs_nil : gcs [] = 0 := rfl
@[simp] theorem taken_nil : bucketsTaken [] = 0 := rfl
@[simp] theorem returned_nil : bucketsReturned [] = 0 := rfl
@[simp] theorem freesP_free (P : Nat → Bool) (v : Nat) (w : Why) : freesP P [.free v w] = if P v = true then 1 else 0 := by
  unfold freesP; simp [List.countP_cons]
@[simp] theorem freesP_bucket (P : Nat → Bool) : freesP P [.freeBucket] = 0 := rfl
@[simp] theorem freesP_alloc (P : Nat → Bool) (b : Bool) : freesP P [.alloc b] = 0 := rfl
@[simp] theorem freesP_lock (P : Nat → Bool) (v : Nat) : freesP P [.lock v] = 0 := rfl
@[simp] theorem gcs_gc (v : Nat) : gcs [.free v .gc] = 1 := rfl
@[simp] theorem gcs_removed (v : Nat) : gcs [.free v .removed] = 0 := rfl
@[simp] theorem gcs_bucket : gcs [.freeBucket] = 0 := rfl
@[simp] theorem gcs_alloc (b : Bool) : gcs [.alloc b] = 0 := rfl
@[simp] theorem gcs_lock (v : Nat) : gcs [.lock v] = 0 := rfl
@[simp] theorem taken_free (v : Nat) (w : Why) : bucketsTaken [.free v w] = 0 := rfl
@[simp] theorem taken_bucket : bucketsTaken [.freeBucket] = 0 := rfl
@[simp] theorem taken_true : bucketsTaken [.alloc true] = 1 := rfl
@[simp] theorem taken_false : bucketsTaken [.alloc false] = 0 := rfl
@[simp] theorem taken_lock (v : Nat) : bucketsTaken [.lock v] = 0 := rfl
@[simp] theorem returned_free (v : Nat) (w : Why) : bucketsReturned [.free v w] = 0 := rfl
@[simp] theorem returned_bucket : bucketsReturned [.freeBucket] = 1 := rfl
@[simp] theorem returned_alloc (b : Bool) : bucketsReturned [.alloc b] = 0 := rfl
@[simp] theorem returned_lock (v : Nat) : bucketsReturned [.lock v] = 0 := rfl

theorem gcMain_count (P : Nat → Bool) (h0 : P 0 = false) (now : Nat) (m : Slot) :
    (if P (gcMain now m).1.data = true then 1 else 0) + freesP P (gcMain now m).2.1 = (if P m.data = true then 1 else 0) ∧
    gcs (gcMain now m).2.1 = (gcMain now m).2.2 ∧ bucketsTaken (gcMain now m).2.1 = 0 ∧ bucketsReturned (gcMain now m).2.1 = 0 := by
  unfold gcMain
  split
  · simp [h0]
  · simp

theorem gcChain_count (P : Nat → Bool) (now : Nat) : ∀ (c : List Slot), (∀ s ∈ c, s.data ≠ 0) →
    (gcChain now c).1.countP (fun s => P s.data) + freesP P (gcChain now c).2.1 = c.countP (fun s => P s.data) ∧
    gcs (gcChain now c).2.1 = (gcChain now c).2.2 ∧ bucketsTaken (gcChain now c).2.1 = 0 ∧
    (gcChain now c).1.length + bucketsReturned (gcChain now c).2.1 = c.length := by
  intro c
  induction c with
  | nil => intro _; simp [gcChain]
  | cons s r ih =>
    intro hd
    obtain ⟨i1, i2, i3, i4⟩ := ih (fun x hx => hd x (List.mem_cons_of_mem _ hx))
    have hs : s.data ≠ 0 := hd s List.mem_cons_self
    unfold gcChain
    rcases hg : gcChain now r with ⟨r', e, n⟩
    rw [hg] at i1 i2 i3 i4
    simp only at i1 i2 i3 i4
    by_cases hst : stale s now = true
    · simp only [hst, if_true, freesP_append, gcs_append, taken_append, returned_append, List.countP_cons, List.length_cons]
      simp only [ne_eq, hs, not_false_eq_true, if_true, freesP_free, freesP_bucket, gcs_gc, gcs_bucket, taken_free, taken_bucket,
        returned_free, returned_bucket]
      refine ⟨?_, ?_, ?_, ?_⟩ <;> omega
    · simp only [if_neg hst, List.countP_cons, List.length_cons]
      refine ⟨?_, ?_, ?_, ?_⟩ <;> omega

theorem prepare_count (P : Nat → Bool) (h0 : P 0 = false) {b : Bucket} (hb : BInv b) (now : Nat) :
    cntB P (prepare b now).1 + freesP P (prepare b now).2.1 = cntB P b ∧
    gcs (prepare b now).2.1 = (prepare b now).2.2 ∧ bucketsTaken (prepare b now).2.1 = 0 ∧
    (prepare b now).1.chain.length + bucketsReturned (prepare b now).2.1 = b.chain.length := by
  obtain ⟨a1, a2, a3, a4⟩ := gcMain_count P h0 now b.main
  obtain ⟨b1, b2, b3, b4⟩ := gcChain_count P now b.chain hb.data
  rw [prepare_eq]
  unfold cntB slots
  simp only [List.countP_cons, freesP_append, gcs_append, taken_append, returned_append]
  refine ⟨?_, ?_, ?_, ?_⟩ <;> omega

/-- The effect of an operation on key `k` on a bucket. -/
structure Eff (b b' : Bucket) (now : Nat) (k : Key) (ev : List Ev) (n : Nat) (after : Option Slot) (add : Option Nat) : Prop where
  inv : BInv b'
  view : ∀ k', view b' k' = if k' = k then after else liveB b now k'
  sub : ∀ s ∈ slots b', s.data ≠ 0 → s ∈ slots b ∨ (s.key = k ∧ s.refered = now ∧ after = some s)
  count : ∀ P : Nat → Bool, P 0 = false →
    cntB P b' + freesP P ev = cntB P b + (if add.any P then 1 else 0)
  chain : b'.chain.length + bucketsReturned ev = b.chain.length + bucketsTaken ev
  gc : gcs ev = n

theorem prepare_eff {b : Bucket} (hb : BInv b) (now : Nat) (k : Key) :
    Eff b (prepare b now).1 now k (prepare b now).2.1 (prepare b now).2.2 (liveB b now k) none where
  inv := prepare_inv hb now
  view := by
    intro k'
    rw [view_prepare hb]
    split
    · next h => rw [h]
    · rfl
  sub := fun s hs hd => Or.inl (prepare_sub b now s hs hd)
  count := by
    intro P h0
    have := (prepare_count P h0 hb now).1
    simpa using this
  chain := by
    obtain ⟨_, _, h3, h4⟩ := prepare_count (fun _ => false) rfl hb now
    omega
  gc := (prepare_count (fun _ => false) rfl hb now).2.1

theorem cntB_of_map {b b' : Bucket} (h : (slots b').map Slot.data = (slots b).map Slot.data) (P : Nat → Bool) : cntB P b' = cntB P b := by
  have e : ∀ x : Bucket, cntB P x = ((slots x).map Slot.data).countP P := by
    intro x; unfold cntB; rw [List.countP_map]; rfl
  rw [e, e, h]

theorem touch_eff {b : Bucket} (hb : BInv b) {now : Nat} {k : Key} {b' : Bucket} {v : Nat} (ht : touch now k (prepare b now).1 = some (b', v)) :
    ∃ s, liveB b now k = some s ∧ s.data = v ∧ s.data ≠ 0 ∧
      Eff b b' now k (prepare b now).2.1 (prepare b now).2.2 (some { s with refered := now }) none := by
  have pe := prepare_eff hb now k
  obtain ⟨s, h1, h2, h3, h4, h5, h6, h7, h8⟩ := touch_spec pe.inv ht
  rw [view_prepare hb] at h1
  refine ⟨s, h1, h2, h3, ⟨h4, ?_, ?_, ?_, ?_, pe.gc⟩⟩
  · intro k'
    rw [h5, view_prepare hb]
  · intro x hx hd
    rcases h7 x hx with hx' | ⟨e1, e2⟩
    · exact Or.inl (prepare_sub b now x hx' hd)
    · obtain ⟨e2, e3⟩ := e2
      exact Or.inr ⟨e2, e1, by rw [e3]⟩
  · intro P h0
    rw [cntB_of_map h6]
    exact pe.count P h0
  · have hl : b'.chain.length = (prepare b now).1.chain.length := by
      have := congrArg List.length h6
      unfold slots at this
      simpa using this
    rw [hl]
    exact pe.chain

theorem put_main_eff {b : Bucket} (hb : BInv b) {now : Nat} {k : Key} {ttl data : Nat} (hd : data ≠ 0)
    (ht : touch now k (prepare b now).1 = none) (hm : (prepare b now).1.main.data = 0) :
    liveB b now k = none ∧
    Eff b { (prepare b now).1 with main := { key := k, data := data, ttl := ttl, refered := now } } now k
      (prepare b now).2.1 (prepare b now).2.2 (some { key := k, data := data, ttl := ttl, refered := now }) (some data) := by
  have pe := prepare_eff hb now k
  have hv := touch_none.1 ht
  obtain ⟨p1, p2⟩ := put_main (new := { key := k, data := data, ttl := ttl, refered := now }) pe.inv hd hv hm
  rw [view_prepare hb] at hv
  refine ⟨hv, ⟨p1, ?_, ?_, ?_, pe.chain, pe.gc⟩⟩
  · intro k'
    rw [p2, view_prepare hb]
  · intro x hx hxd
    unfold slots at hx
    simp only [List.mem_cons] at hx
    rcases hx with rfl | hx
    · exact Or.inr ⟨rfl, rfl, rfl⟩
    · exact Or.inl (prepare_sub b now x (by unfold slots; exact List.mem_cons_of_mem _ hx) hxd)
  · intro P h0
    have := pe.count P h0
    unfold cntB slots at this ⊢
    simp only [List.countP_cons, hm, h0] at this ⊢
    simp only [Option.any_some, Option.any_none] at this ⊢
    simp at this ⊢
    omega

theorem put_chain_eff {b : Bucket} (hb : BInv b) {now : Nat} {k : Key} {ttl data : Nat} (hd : data ≠ 0)
    (ht : touch now k (prepare b now).1 = none) (hm : (prepare b now).1.main.data ≠ 0) :
    liveB b now k = none ∧
    Eff b { (prepare b now).1 with chain := { key := k, data := data, ttl := ttl, refered := now } :: (prepare b now).1.chain } now k
      ((prepare b now).2.1 ++ [.alloc true]) (prepare b now).2.2 (some { key := k, data := data, ttl := ttl, refered := now }) (some data) := by
  have pe := prepare_eff hb now k
  have hv := touch_none.1 ht
  obtain ⟨p1, p2⟩ := put_chain (new := { key := k, data := data, ttl := ttl, refered := now }) pe.inv hd hv hm
  rw [view_prepare hb] at hv
  refine ⟨hv, ⟨p1, ?_, ?_, ?_, ?_, ?_⟩⟩
  · intro k'
    rw [p2, view_prepare hb]
  · intro x hx hxd
    unfold slots at hx
    simp only [List.mem_cons] at hx
    rcases hx with rfl | rfl | hx
    · exact Or.inl (prepare_sub b now _ (by unfold slots; exact List.mem_cons_self) hxd)
    · exact Or.inr ⟨rfl, rfl, rfl⟩
    · exact Or.inl (prepare_sub b now x (by unfold slots; exact List.mem_cons_of_mem _ hx) hxd)
  · intro P h0
    have := pe.count P h0
    unfold cntB slots at this ⊢
    simp only [List.countP_cons, freesP_append, freesP_alloc] at this ⊢
    simp only [Option.any_some, Option.any_none] at this ⊢
    simp at this ⊢
    omega
  · have := pe.chain
    simp only [List.length_cons, returned_append, taken_append, returned_alloc, taken_true]
    omega
  · simp [pe.gc]

theorem clear_main_eff {b : Bucket} (hb : BInv b) {now : Nat} {k : Key} (hk : (prepare b now).1.main.key = k) :
    Eff b { (prepare b now).1 with main := { (prepare b now).1.main with data := 0 } } now k
      ((prepare b now).2.1 ++ (if (prepare b now).1.main.data ≠ 0 then [.free (prepare b now).1.main.data .removed] else []))
      (prepare b now).2.2 none none := by
  have pe := prepare_eff hb now k
  obtain ⟨p1, p2⟩ := clear_main pe.inv
  refine ⟨p1, ?_, ?_, ?_, ?_, ?_⟩
  · intro k'
    rw [p2, hk, view_prepare hb]
  · intro x hx hxd
    unfold slots at hx
    simp only [List.mem_cons] at hx
    rcases hx with rfl | hx
    · exact absurd rfl hxd
    · exact Or.inl (prepare_sub b now x (by unfold slots; exact List.mem_cons_of_mem _ hx) hxd)
  · intro P h0
    have := pe.count P h0
    unfold cntB slots at this ⊢
    simp only [List.countP_cons, freesP_append, h0] at this ⊢
    by_cases hd : (prepare b now).1.main.data = 0
    · simp [hd, h0] at this ⊢
      omega
    · simp [hd] at this ⊢
      omega
  · have := pe.chain
    split <;> simpa using this
  · split <;> simp [pe.gc]

theorem removeChain_count (k : Key) (P : Nat → Bool) : ∀ (c : List Slot), (∀ s ∈ c, s.data ≠ 0) →
    (removeChain k c).1.countP (fun s => P s.data) + freesP P (removeChain k c).2 = c.countP (fun s => P s.data) ∧
    gcs (removeChain k c).2 = 0 ∧ bucketsTaken (removeChain k c).2 = 0 ∧
    (removeChain k c).1.length + bucketsReturned (removeChain k c).2 = c.length := by
  intro c
  induction c with
  | nil => intro _; simp [removeChain]
  | cons s r ih =>
    intro hd
    obtain ⟨i1, i2, i3, i4⟩ := ih (fun x hx => hd x (List.mem_cons_of_mem _ hx))
    have hs : s.data ≠ 0 := hd s List.mem_cons_self
    unfold removeChain
    rcases hg : removeChain k r with ⟨r', e⟩
    rw [hg] at i1 i2 i3 i4
    simp only at i1 i2 i3 i4
    by_cases hk : s.key = k
    · simp only [hk, if_true, ne_eq, hs, not_false_eq_true, List.countP_cons, freesP_append, gcs_append, taken_append, returned_append,
        freesP_free, freesP_bucket, gcs_removed, gcs_bucket, taken_free, taken_bucket, returned_free, returned_bucket, List.length_cons]
      simp
    · simp only [hk, if_false, List.countP_cons, List.length_cons]
      refine ⟨?_, ?_, ?_, ?_⟩ <;> omega

theorem remove_chain_eff {b : Bucket} (hb : BInv b) {now : Nat} {k : Key} (hk : (prepare b now).1.main.key ≠ k) :
    Eff b { (prepare b now).1 with chain := (removeChain k (prepare b now).1.chain).1 } now k
      ((prepare b now).2.1 ++ (removeChain k (prepare b now).1.chain).2) (prepare b now).2.2 none none := by
  have pe := prepare_eff hb now k
  obtain ⟨p1, p2⟩ := remove_chain pe.inv hk
  refine ⟨p1, ?_, ?_, ?_, ?_, ?_⟩
  · intro k'
    rw [p2, view_prepare hb]
  · intro x hx hxd
    rw [removeChain_spec k _ pe.inv.chain_nodup] at hx
    unfold slots at hx
    simp only [List.mem_cons, List.mem_filter] at hx
    rcases hx with rfl | ⟨hx, _⟩
    · exact Or.inl (prepare_sub b now _ (by unfold slots; exact List.mem_cons_self) hxd)
    · exact Or.inl (prepare_sub b now x (by unfold slots; exact List.mem_cons_of_mem _ hx) hxd)
  · intro P h0
    have := pe.count P h0
    have rc := (removeChain_count k P _ pe.inv.data).1
    unfold cntB slots at this ⊢
    simp only [List.countP_cons, freesP_append] at this ⊢
    simp at this ⊢
    omega
  · have := pe.chain
    obtain ⟨_, _, r3, r4⟩ := removeChain_count k (fun _ => false) _ pe.inv.data
    simp only [returned_append, taken_append]
    omega
  · have := (removeChain_count k (fun _ => false) _ pe.inv.data).2.1
    simp [pe.gc, this]

/-! ### The table -/

structure Inv (ct : Ct) : Prop where
  pos : 0 < ct.size
  len : ct.buckets.length = ct.size
  bkt : ∀ i b, ct.buckets[i]? = some b → BInv b ∧ ∀ s ∈ slots b, s.data ≠ 0 → slotOf ct.size s.key = i

/-- What the table stores for `k`. -/
def liveT (ct : Ct) (now : Nat) (k : Key) : Option Slot := (ct.buckets[slotOf ct.size k]?).bind (fun b => liveB b now k)

/-- Sum over the table. -/
def sumT (f : Bucket → Nat) (l : List Bucket) : Nat := (l.map f).sum

theorem sumT_set (f : Bucket → Nat) : ∀ (l : List Bucket) (i : Nat) (b b' : Bucket), l[i]? = some b →
    sumT f (l.set i b') + f b = sumT f l + f b' := by
  intro l
  induction l with
  | nil => intro i b b' h; simp at h
  | cons x r ih =>
    intro i b b' h
    cases i with
    | zero =>
      simp only [List.getElem?_cons_zero, Option.some.injEq] at h
      subst h
      simp [sumT]; omega
    | succ j =>
      simp only [List.getElem?_cons_succ] at h
      have := ih j b b' h
      simp only [sumT, List.set_cons_succ, List.map_cons, List.sum_cons] at this ⊢
      omega

theorem slotOf_lt {size : Nat} (h : 0 < size) (k : Key) : slotOf size k < size := Nat.mod_lt _ h

theorem bucket_exists {ct : Ct} (h : Inv ct) (k : Key) : ∃ b, ct.buckets[slotOf ct.size k]? = some b ∧ bucketOf ct k = .ok b := by
  have hl : slotOf ct.size k < ct.buckets.length := by rw [h.len]; exact slotOf_lt h.pos k
  refine ⟨ct.buckets[slotOf ct.size k], List.getElem?_eq_getElem hl, ?_⟩
  unfold bucketOf
  have := h.pos
  rw [if_neg (by omega), List.getElem?_eq_getElem hl]

theorem create_inv {size : Nat} (h : 0 < size) (ttl : Nat) : Inv (create size ttl) where
  pos := h
  len := by simp [create]
  bkt := by
    intro i b hb
    have : b = { main := { key := Key.zero, data := 0, ttl := 0, refered := 0 }, chain := [] } := by
      have := List.mem_of_getElem? hb
      simp only [create] at this
      exact List.eq_of_mem_replicate this
    subst this
    refine ⟨⟨by simp [slots], by simp⟩, ?_⟩
    intro s hs hd
    simp [slots] at hs
    subst hs
    exact absurd rfl hd

/-- `ct'` is `ct` with the bucket of `k` changed (and other counters). -/
structure TEff (ct ct' : Ct) (now : Nat) (k : Key) (ev : List Ev) (n : Nat) (after : Option Slot) (add : Option Nat) : Prop where
  inv : Inv ct'
  size : ct'.size = ct.size
  live : ∀ k', k' ≠ k → ∀ t, (slotOf ct.size k' ≠ slotOf ct.size k ∨ t = now) → liveT ct' t k' = liveT ct t k'
  self : liveT ct' now k = after.filter (fun s => !stale s now)
  sub : ∀ b' ∈ ct'.buckets, ∀ s ∈ slots b', s.data ≠ 0 → (∃ b ∈ ct.buckets, s ∈ slots b) ∨ (s.key = k ∧ s.refered = now ∧ after = some s)
  count : ∀ P : Nat → Bool, P 0 = false →
    sumT (cntB P) ct'.buckets + freesP P ev = sumT (cntB P) ct.buckets + (if add.any P then 1 else 0)
  chain : sumT (fun b => b.chain.length) ct'.buckets + bucketsReturned ev = sumT (fun b => b.chain.length) ct.buckets + bucketsTaken ev
  gc : gcs ev = n
  own : ∀ b' ∈ ct'.buckets, ∀ s ∈ slots b', s.data ≠ 0 → s.key = k → after = some s

theorem view_of_mem {b : Bucket} (h : BInv b) {s : Slot} (hs : s ∈ slots b) (hd : s.data ≠ 0) : view b s.key = some s := by
  have hn := h.nodup
  unfold view
  generalize slots b = l at hs hn
  induction l with
  | nil => cases hs
  | cons a l ih =>
    rw [List.map_cons, List.nodup_cons] at hn
    rcases List.mem_cons.1 hs with rfl | hs
    · rw [List.find?_cons_of_pos (hit_iff.2 ⟨hd, rfl⟩)]
    · have hne : ¬ hit s.key a = true := by
        intro hh
        exact hn.1 (by rw [(hit_iff.1 hh).2]; exact List.mem_map.2 ⟨s, hs, rfl⟩)
      rw [List.find?_cons_of_neg hne]
      exact ih hs hn.2

theorem filter_idem {α : Type} (p : α → Bool) (o : Option α) : (o.filter p).filter p = o.filter p := by
  cases o with
  | none => rfl
  | some a => by_cases h : p a = true <;> simp [Option.filter, h]

theorem eff_table {ct : Ct} (h : Inv ct) {k : Key} {b b' : Bucket} (hb : ct.buckets[slotOf ct.size k]? = some b) {now : Nat} {ev : List Ev}
    {n : Nat} {after : Option Slot} {add : Option Nat} (e : Eff b b' now k ev n after add) (st : Stats) :
    TEff ct (setBucket { ct with stats := st } k b') now k ev n after add := by
  have hlt : slotOf ct.size k < ct.buckets.length := by rw [h.len]; exact slotOf_lt h.pos k
  have hbk : ∀ i x, (setBucket { ct with stats := st } k b').buckets[i]? = some x → BInv x ∧ ∀ s ∈ slots x, s.data ≠ 0 → slotOf ct.size s.key = i := by
    intro i x hx
    simp only [setBucket] at hx ⊢
    rw [List.getElem?_set] at hx
    split at hx
    · next hi =>
      injection hx with hx
      subst hx
      refine ⟨e.inv, ?_⟩
      intro s hs hd
      rcases e.sub s hs hd with hs' | ⟨hs', _, _⟩
      · rw [← hi]; exact (h.bkt _ b hb).2 s hs' hd
      · rw [hs', hi]
    · exact h.bkt i x hx
  refine ⟨⟨h.pos, ?_, hbk⟩, rfl, ?_, ?_, ?_, ?_, ?_, e.gc, ?_⟩
  · simp [setBucket, h.len]
  · intro k' hk' t ht
    unfold liveT setBucket
    simp only
    rw [List.getElem?_set]
    split
    · next hi =>
      rcases ht with ht | rfl
      · exact absurd hi.symm ht
      · rw [← hi, hb]
        simp only [Option.bind_some]
        unfold liveB
        rw [e.view k', if_neg hk']
        unfold liveB
        rw [filter_idem]
    · rfl
  · unfold liveT setBucket
    simp only
    rw [List.getElem?_set]
    simp only [if_true, hlt, Option.bind_some]
    unfold liveB
    rw [e.view k, if_pos rfl]
  · intro x hx s hs hd
    simp only [setBucket] at hx
    rcases List.mem_or_eq_of_mem_set hx with hx | hx
    · exact Or.inl ⟨x, hx, hs⟩
    · subst hx
      rcases e.sub s hs hd with hs' | hs'
      · exact Or.inl ⟨b, List.mem_of_getElem? hb, hs'⟩
      · exact Or.inr hs'
  · intro P h0
    have := sumT_set (cntB P) ct.buckets _ b b' hb
    have := e.count P h0
    simp only [setBucket]
    omega
  · have := sumT_set (fun b => b.chain.length) ct.buckets _ b b' hb
    have := e.chain
    simp only [setBucket]
    omega
  · intro x hx s hs hd hk
    obtain ⟨i, hi⟩ := List.getElem?_of_mem hx
    have h1 := (hbk i x hi).2 s hs hd
    rw [hk] at h1
    simp only [setBucket, ← h1, List.getElem?_set, if_true, hlt, Option.some.injEq] at hi
    subst hi
    have h2 := view_of_mem e.inv hs hd
    rw [hk, e.view k, if_pos rfl] at h2
    exact h2

end Nfqlb.Ct
