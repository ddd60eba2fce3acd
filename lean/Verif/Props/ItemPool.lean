import Verif.Proof.ItemPool

set_option autoImplicit false

/-! Properties C25 and C26: item pools. -/

namespace Nfqlb.Props

open Nfqlb.Pool Nfqlb.Spec

/-! ### C25. All theorems are about pools whose items fit in 4 GB, see `C25_overflow_undefined` for the others. -/

/-- An allocation returns an item that exists and that nobody uses, not linked to anything. -/
theorem C25_fresh_partial {n size : Nat} (hs : n * (sizeofItem + size) < 2 ^ 32) {p : Pool} {used : List Nat} (h : PoolHist n size p used) {p' : Pool} {i : Nat}
    (ha : allocate p = (p', some i)) : i < n ∧ i ∉ used ∧ LinkedList p'.next (some i) [i] := by
  obtain ⟨f, hf⟩ := hist_inv hs h
  obtain ⟨f', rfl, h2, h3⟩ := allocate_some hf ha
  refine ⟨(hf.all i).2 (Or.inr List.mem_cons_self), ?_, h3⟩
  have hn := h2.nodup
  rw [List.cons_append, List.nodup_cons] at hn
  exact fun hm => hn.1 (List.mem_append_left _ hm)

/-- An allocation fails exactly if all items are in use. -/
theorem C25_exhausted_partial {n size : Nat} (hs : n * (sizeofItem + size) < 2 ^ 32) {p : Pool} {used : List Nat} (h : PoolHist n size p used) :
    (allocate p).2 = none ↔ ∀ i, i < n → i ∈ used := by
  obtain ⟨f, hf⟩ := hist_inv hs h
  constructor
  · intro ha
    obtain ⟨h1, _⟩ := allocate_none hf (p' := (allocate p).1) (by rw [← ha])
    intro i hi
    rcases (hf.all i).1 hi with h | h
    · exact h
    · rw [h1] at h; cases h
  · intro hall
    cases ha : (allocate p).2 with
    | none => rfl
    | some i =>
      have := C25_fresh_partial hs h (p' := (allocate p).1) (i := i) (by rw [← ha])
      exact absurd (hall i this.1) this.2.1

/-- The items in use are distinct items of the pool, and the reported number of free items is exact. -/
theorem C25_count_partial {n size : Nat} (hs : n * (sizeofItem + size) < 2 ^ 32) {p : Pool} {used : List Nat} (h : PoolHist n size p used) :
    p.size = n ∧ used.Nodup ∧ (∀ i ∈ used, i < n) ∧ p.nFree + used.length = n := by
  obtain ⟨f, hf⟩ := hist_inv hs h
  have hn := hf.nodup
  rw [List.nodup_append] at hn
  have := inv_length hf
  have := hf.nFree
  exact ⟨hf.size, hn.1, fun i hi => (hf.all i).2 (Or.inl hi), by omega⟩

/-- Giving back any list of items in use returns, and exactly those items are no longer in use (`PoolHist.freed`). -/
theorem C25_free_partial {n size : Nat} (hs : n * (sizeofItem + size) < 2 ^ 32) {p : Pool} {used : List Nat} (h : PoolHist n size p used) {x : Option Nat} {l : List Nat}
    (hl : OwnList p used x l) :
    ∃ p', free p x = .ok p' ∧ PoolHist n size p' (used.filter (fun i => decide (i ∉ l))) ∧ p'.nFree = p.nFree + l.length := by
  obtain ⟨f, hf⟩ := hist_inv hs h
  obtain ⟨p', k1, k2⟩ := freeLoop_inv l p.size hf hl.list hl.nodup hl.own (length_le hf hl.nodup hl.own)
  refine ⟨p', k1, .freed h hl k1, ?_⟩
  have := hf.nFree
  have := k2.nFree
  simp at this
  omega

/-- Allocation in front of a list returns; it either links the new item to the list or gives the list back. -/
theorem C25_with_next_partial {n size : Nat} (hs : n * (sizeofItem + size) < 2 ^ 32) {p : Pool} {used : List Nat} (h : PoolHist n size p used) {x : Option Nat} {l : List Nat}
    (hl : OwnList p used x l) :
    (∃ p' i, allocateWithNext p x = .ok (p', some i) ∧ i < n ∧ i ∉ used ∧ LinkedList p'.next (some i) (i :: l)) ∨
    (∃ p', allocateWithNext p x = .ok (p', none) ∧ (∀ i, i < n → i ∈ used) ∧ PoolHist n size p' (used.filter (fun i => decide (i ∉ l))) ∧
      p'.nFree = l.length) := by
  obtain ⟨f, hf⟩ := hist_inv hs h
  rcases hq : allocate p with ⟨q, r⟩
  cases r with
  | some i =>
    left
    have ha : allocateWithNext p x = .ok ({ q with next := setNext q.next i x }, some i) := by
      unfold allocateWithNext; rw [hq]
    obtain ⟨h1, h2, _⟩ := C25_fresh_partial hs h hq
    refine ⟨_, i, ha, h1, h2, .cons ?_⟩
    have hx : setNext q.next i x i = x := by unfold setNext; rw [if_pos rfl]
    simp only [hx]
    have hil : i ∉ l := fun hm => h2 (hl.own i hm)
    apply LinkedList.setNext _ hil
    apply Pool.LinkedList.congr hl.list
    intro j hj
    have hq' := congrArg Prod.fst hq
    unfold allocate at hq
    simp only at hq
    cases hfr : p.free with
    | none => rw [hfr] at hq; cases congrArg Prod.snd hq
    | some k =>
      rw [hfr] at hq
      have e1 := congrArg (fun z => z.1.next) hq
      have e2 : some k = some i := congrArg Prod.snd hq
      simp only at e1
      rw [← e1]
      unfold setNext
      injection e2 with e2
      rw [if_neg]
      rintro rfl
      exact h2 (e2 ▸ hl.own _ hj)
  | none =>
    right
    obtain ⟨g1, g2, g3, _⟩ := allocate_none hf hq
    obtain ⟨p2, k1, k2⟩ := freeLoop_inv l q.size g2 (by rw [g3]; exact hl.list) hl.nodup hl.own (length_le g2 hl.nodup hl.own)
    have ha : allocateWithNext p x = .ok (p2, none) := by
      unfold allocateWithNext; rw [hq]; simp only; unfold free; rw [k1]; rfl
    refine ⟨p2, ha, ?_, .freedNext h hl ha, ?_⟩
    · exact (C25_exhausted_partial hs h).1 (by rw [hq])
    · have := k2.nFree
      simpa using this

/-- The statistics count calls of `itemAllocate` and those of them that got nothing, modulo 2^32; freeing changes neither; clearing sets both to 0 and changes nothing else. -/
theorem C25_stats (p : Pool) :
    (allocate p).1.nAllocatedCalls = u32 (p.nAllocatedCalls + 1) ∧
    ((allocate p).2 = none → (allocate p).1.nRejected = u32 (p.nRejected + 1)) ∧
    ((allocate p).2 ≠ none → (allocate p).1.nRejected = p.nRejected) ∧
    (∀ x p', free p x = .ok p' → p'.nAllocatedCalls = p.nAllocatedCalls ∧ p'.nRejected = p.nRejected) ∧
    clearStats p = { p with nAllocatedCalls := 0, nRejected := 0 } := by
  have hfree : ∀ (n : Nat) (q : Pool) (x : Option Nat) (q' : Pool), freeLoop n q x = .ok q' → q'.nAllocatedCalls = q.nAllocatedCalls ∧ q'.nRejected = q.nRejected := by
    intro n
    induction n with
    | zero =>
      intro q x q' h
      cases x with
      | none => simp only [freeLoop, Res.ok.injEq] at h; subst h; exact ⟨rfl, rfl⟩
      | some f => cases h
    | succ n ih =>
      intro q x q' h
      cases x with
      | none => simp only [freeLoop, Res.ok.injEq] at h; subst h; exact ⟨rfl, rfl⟩
      | some f =>
        simp only [freeLoop] at h
        have k := ih _ _ _ h
        exact k
  refine ⟨?_, ?_, ?_, fun x p' h => hfree _ _ _ _ h, rfl⟩
  · unfold allocate
    cases p.free <;> simp only
  · intro hn
    cases h : p.free with
    | none => unfold allocate; simp only [h]
    | some f => unfold allocate at hn; simp only [h, reduceCtorEq] at hn
  · intro hn
    cases h : p.free with
    | none => unfold allocate at hn; simp only [h, ne_eq, not_true_eq_false] at hn
    | some f => unfold allocate; simp only [h]

/-- Such pools are created if there is memory. -/
theorem C25_create_partial {n size : Nat} (hs : n * (sizeofItem + size) < 2 ^ 32) : ∃ p ev, create n size true true = .ok (some p, ev) := by
  unfold create
  simp only [Bool.true_eq_false, if_false]
  by_cases h0 : n = 0
  · rw [if_pos h0]; exact ⟨_, _, rfl⟩
  · rw [if_neg h0]
    have h1 : sizeofItem + size ≤ n * (sizeofItem + size) := Nat.le_mul_of_pos_left _ (by omega)
    have h2 : u32 (sizeofItem + size) = sizeofItem + size := by unfold u32; omega
    have h3 : u32 (n * (sizeofItem + size)) = n * (sizeofItem + size) := by unfold u32; omega
    have h4 : (n - 1) * (sizeofItem + size) + (sizeofItem + size) = n * (sizeofItem + size) := by
      have : n = (n - 1) + 1 := by omega
      rw [← Nat.succ_mul, Nat.succ_eq_add_one, ← this]
    rw [h2, h3, if_neg (by omega)]
    exact ⟨_, _, rfl⟩

/-- What is missing: a pool whose items need 4 GB or more gets too little memory and is initialised outside of it. -/
theorem C25_overflow_undefined {n size : Nat} (h : 2 ^ 32 ≤ n * (sizeofItem + size)) (hs : sizeofItem + size < 2 ^ 32) :
    create n size true true = .ub := by
  unfold create
  simp only [Bool.true_eq_false, if_false]
  have h0 : n ≠ 0 := by rintro rfl; simp at h
  rw [if_neg h0]
  have h2 : u32 (sizeofItem + size) = sizeofItem + size := by unfold u32; omega
  have h4 : (n - 1) * (sizeofItem + size) + (sizeofItem + size) = n * (sizeofItem + size) := by
    have : n = (n - 1) + 1 := by omega
    rw [← Nat.succ_mul, Nat.succ_eq_add_one, ← this]
  have h5 : u32 (n * (sizeofItem + size)) + 2 ^ 32 ≤ n * (sizeofItem + size) := by unfold u32; omega
  rw [h2, if_pos (by omega)]

/-- 3 million fragments of 1500 bytes are enough. -/
example : create 3000000 1500 true true = .ub := C25_overflow_undefined (by decide) (by decide)

/-- A pool of three items. -/
def demoPool : Pool :=
  { size := 3
    itemSize := 16
    nFree := 3
    nAllocatedCalls := 0
    nRejected := 0
    free := (initLoop 3).2
    next := (initLoop 3).1
    mem := .block }

/-- A history: three items are handed out, two of them are linked and given back as a list. -/
example : ∃ p, PoolHist 3 16 p [0] ∧ p.nFree = 2 := by
  have hc : create 3 16 true true = .ok (some demoPool, [.malloc .pool, .malloc .items]) := by
    unfold create
    rw [if_neg (by decide), if_neg (by decide)]
    simp only [Bool.true_eq_false, if_false]
    rw [if_neg (by decide)]
    rfl
  have c0 : PoolHist 3 16 demoPool [] := .create hc
  have c1 := PoolHist.got (i := 2) c0 rfl
  have c2 := PoolHist.got (i := 1) c1 rfl
  have c3 := PoolHist.got (i := 0) c2 rfl
  have c4 := PoolHist.link (i := 2) (x := some 1) c3 (by decide)
  obtain ⟨p5, _, c5, n5⟩ := C25_free_partial (l := [2, 1]) (x := some 2) (by decide) c4
    ⟨LinkedList.cons (i := 2) (LinkedList.cons (i := 1) LinkedList.nil), by decide, by decide⟩
  exact ⟨p5, c5, n5⟩

/-! ### C26 -/

/-- Memory is balanced for pools with at least one item: what was allocated is freed, once. Also if memory runs out during creation. -/
theorem C26_balanced_partial {n size : Nat} (h0 : n ≠ 0) (hs : n * (sizeofItem + size) < 2 ^ 32) (ok1 ok2 : Bool) :
    ∃ r ev, create n size ok1 ok2 = .ok (r, ev) ∧
      match r with
      | none => ∀ b, ev.count (.malloc b) = ev.count (.free b)
      | some p => ∃ ev', destroy p = .ok ev' ∧ ∀ b, (ev ++ ev').count (.malloc b) = (ev ++ ev').count (.free b) := by
  cases ok1 with
  | false =>
    refine ⟨none, [], by unfold create; rw [if_pos rfl], ?_⟩
    intro b; cases b <;> rfl
  | true =>
    cases ok2 with
    | false =>
      refine ⟨none, [.malloc .pool, .free .pool], by unfold create; rw [if_neg (by decide), if_neg h0]; simp only [if_true], ?_⟩
      intro b; cases b <;> decide
    | true =>
      obtain ⟨p, ev, hc⟩ := C25_create_partial hs
      refine ⟨some p, ev, hc, ?_⟩
      have hm : p.mem = .block := (create_inv hs hc).mem h0
      refine ⟨[.free .items, .free .pool], by unfold destroy; rw [hm], ?_⟩
      have hev : ev = [.malloc .pool, .malloc .items] := by
        unfold create at hc
        rw [if_neg (by decide), if_neg h0] at hc
        simp only at hc
        rw [if_neg (by decide)] at hc
        split at hc
        · cases hc
        · injection hc with hc
          exact (congrArg Prod.snd hc).symm
      rw [hev]
      intro b; cases b <;> decide

example : (5 : Nat) ≠ 0 ∧ 5 * (sizeofItem + 1500) < 2 ^ 32 := by decide

/-- The memory survives any history of use. -/
theorem C26_after_use_partial {n size : Nat} (h0 : n ≠ 0) (hs : n * (sizeofItem + size) < 2 ^ 32) {p : Pool} {used : List Nat} (h : PoolHist n size p used) :
    destroy p = .ok [.free .items, .free .pool] := by
  obtain ⟨f, hf⟩ := hist_inv hs h
  unfold destroy
  rw [hf.mem h0]

/-- The code violates it for size 0: the pointer given to `free` was never set. -/
theorem C26_size_zero_violated (size : Nat) : ∃ p ev, create 0 size true true = .ok (some p, ev) ∧ destroy p = .ub :=
  ⟨_, _, rfl, rfl⟩

end Nfqlb.Props
