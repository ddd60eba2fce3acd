import Verif.Proof.ConntrackProps

set_option autoImplicit false

/-! Properties C20–C24: the connection tracker. -/

namespace Nfqlb.Props

open Nfqlb.Ct Nfqlb.Spec

/-- A key for examples. -/
def ctKey (n : UInt8) : Key := { Key.zero with dst := List.replicate 15 0 ++ [n] }

/-- Three keys in a table with one place: all collide. -/
def ctDemo : List Op :=
  [.insert 10 (ctKey 1) 100 7 true, .insert 11 (ctKey 2) 100 8 true, .insert 12 (ctKey 3) 100 9 false, .insert 13 (ctKey 1) 100 6 true,
   .lookup 20 (ctKey 2), .remove 21 (ctKey 1), .lookup 22 (ctKey 1), .stats 23, .lookup 200 (ctKey 2)]

example : (do let x ← run (create 1 100) ctDemo; return x.2) =
    .ok ([0, 0, -1, 1, 8, 0, 0, 0, 0],
      [.alloc true, .alloc false, .lock 8, .free 7 .removed, .free 8 .gc, .freeBucket]) := by decide +kernel

/-! ### C20 -/

/-- With time stamps that do not decrease, every history of calls is executed and its results are those of a map with time-to-live, for
every table with at least one bucket, all hash collisions and all behaviours of the bucket allocator. -/
theorem C20_ttl_map_partial {size : Nat} (hsize : 0 < size) (ttl t : Nat) (ops : List Op) (ht : TimesFrom t ops) :
    ∃ ct rs ev m, run (create size ttl) ops = .ok (ct, rs, ev) ∧ MapRun (slotOf size) TtlMap.empty ops rs m := by
  obtain ⟨ct, rs, ev, m, n, h1, h2, _⟩ := run_refines (create_inv hsize ttl) (m := TtlMap.empty) ops ht (create_tinv size ttl t) (create_rel ttl t)
  exact ⟨ct, rs, ev, m, h1, CollRun.mapRun h2⟩

example : TimesFrom 0 ctDemo := by simp [ctDemo, TimesFrom, opTime]

/-- `ctInsert` is an insert with the ttl of the table. -/
theorem C20_insert_default (ct : Ct) (now : Nat) (k : Key) (data : Nat) (ok : Bool) :
    insert ct now k data ok = insertTTL ct now k ct.ttl data ok := rfl

/-- What is missing: a table of size 0 is created without complaint, and every access divides by zero. -/
theorem C20_size_zero_undefined (ttl now : Nat) (k : Key) : lookup (create 0 ttl) now k = .ub := rfl

/-! ### C21 -/

/-- For every history, ended by `ctDestroy`: each value is freed exactly as often as it was accepted (once, if values are not inserted
twice). Time stamps may come in any order; the condition keeps time + ttl below the largest 64-bit number, which `ctDestroy` uses as "end of time". -/
theorem C21_freed_once_partial {size : Nat} (hsize : 0 < size) (ttl T L : Nat) (hTL : T + L < 2 ^ 64 - 1) (ops : List Op) (ho : Within T L ops) :
    ∃ ct rs ev, run (create size ttl) ops = .ok (ct, rs, ev) ∧
      ∀ v, v ≠ 0 → frees v (ev ++ destroy ct) = accepted v ops rs := by
  obtain ⟨ct, rs, ev, h1, b⟩ := run_books (create_inv hsize ttl) ops
  have hb := run_bounded (create_inv hsize ttl) (create_bounded size ttl T L) ops ho h1
  refine ⟨ct, rs, ev, h1, ?_⟩
  intro v hv
  have hc := b.count v hv
  rw [create_cnt _ (by simpa using hv.symm)] at hc
  have hd : frees v (destroy ct) = sumT (cntB (fun w => decide (w = v))) ct.buckets := (destroy_all b.inv hb hTL).1 v hv
  rw [frees_append, hd]
  omega

example : Within 1000 100 ctDemo := by
  intro o ho
  simp only [ctDemo, List.mem_cons, List.not_mem_nil, or_false] at ho
  rcases ho with rfl | rfl | rfl | rfl | rfl | rfl | rfl | rfl | rfl <;> simp [opTime]

/-- At any time before that, in any history: what was accepted and not freed is stored, nothing else is. -/
theorem C21_balance {size : Nat} (hsize : 0 < size) (ttl : Nat) (ops : List Op) :
    ∃ ct rs ev, run (create size ttl) ops = .ok (ct, rs, ev) ∧ ∀ v, v ≠ 0 → frees v ev + storedTimes v ct = accepted v ops rs := by
  obtain ⟨ct, rs, ev, h1, b⟩ := run_books (create_inv hsize ttl) ops
  refine ⟨ct, rs, ev, h1, ?_⟩
  intro v hv
  have hc := b.count v hv
  rw [create_cnt _ (by simpa using hv.symm)] at hc
  have : storedTimes v ct = sumT (cntB (fun w => decide (w = v))) ct.buckets := rfl
  omega

/-- A value that was accepted once and is returned by a lookup has not been freed, not even by that lookup. -/
theorem C21_returned_not_freed {size : Nat} (hsize : 0 < size) (ttl : Nat) (ops : List Op) {ct ct' : Ct} {rs : List Int} {ev ev' : List Ev}
    (hr : run (create size ttl) ops = .ok (ct, rs, ev)) {now v : Nat} {k : Key} (hl : lookup ct now k = .ok (ct', v, ev')) (hv : v ≠ 0)
    (once : accepted v ops rs = 1) : frees v (ev ++ ev') = 0 := by
  obtain ⟨c, rs', e, h1, b⟩ := run_books (create_inv hsize ttl) ops
  rw [hr] at h1
  injection h1 with h1
  have e1 : ct = c := congrArg Prod.fst h1
  have e2 : rs = rs' := congrArg (fun x => x.2.1) h1
  have e3 : ev = e := congrArg (fun x => x.2.2) h1
  subst e1 e2 e3
  obtain ⟨c', v', e', n, g1, _, g3⟩ := lookup_cases b.inv now k
  rw [hl] at g1
  injection g1 with g1
  have e1 : ct' = c' := congrArg Prod.fst g1
  have e2 : v = v' := congrArg (fun x => x.2.1) g1
  have e3 : ev' = e' := congrArg (fun x => x.2.2) g1
  subst e1 e2 e3
  rcases g3 with ⟨s, s1, s2, _, te⟩ | ⟨_, h0, _⟩
  · have hc := b.count v hv
    rw [create_cnt _ (by simpa using hv.symm)] at hc
    have hc' := te.books.1 v hv
    simp only [reduceCtorEq, if_false] at hc'
    have hself := te.self
    rw [Option.filter_some] at hself
    have hfresh : stale { s with refered := now } now = false := by
      unfold stale sub64
      have : (now + 2 ^ 64 - now) % 2 ^ 64 = 0 := by omega
      simp only [this]
      exact decide_eq_false (by omega)
    rw [hfresh] at hself
    simp only [Bool.not_false, if_true] at hself
    obtain ⟨st, _, _⟩ := stored_of_live hself
    obtain ⟨⟨b0, hb0, hs0⟩, _⟩ := stored_iff.1 st
    have hpos : 0 < sumT (cntB (fun w => decide (w = v))) ct'.buckets := by
      have h1 : 0 < cntB (fun w => decide (w = v)) b0 := by
        unfold cntB
        rw [List.countP_pos_iff]
        exact ⟨_, hs0, by simp [s2]⟩
      have h2 : cntB (fun w => decide (w = v)) b0 ≤ sumT (cntB (fun w => decide (w = v))) ct'.buckets := by
        obtain ⟨i, hi⟩ := List.getElem?_of_mem hb0
        have := sumT_set (cntB (fun w => decide (w = v))) ct'.buckets i b0
          { main := { key := Key.zero, data := 0, ttl := 0, refered := 0 }, chain := [] } hi
        have h0 : cntB (fun w => decide (w = v)) { main := { key := Key.zero, data := 0, ttl := 0, refered := 0 }, chain := [] } = 0 := by
          simp [cntB, slots]; exact hv.symm
        omega
      omega
    rw [frees_append]
    omega
  · exact absurd h0 hv

example : ∃ ct rs ev ct' ev', run (create 1 100) (ctDemo.take 4) = .ok (ct, rs, ev) ∧ lookup ct 20 (ctKey 2) = .ok (ct', 8, ev') ∧
    accepted 8 (ctDemo.take 4) rs = 1 :=
  ⟨{ size := 1, ttl := 100, stats := { active := 0, collisions := 2, inserts := 4, rejectedInserts := 1, lookups := 0, objGC := 0 },
     buckets := [{ main := { key := ctKey 1, data := 7, ttl := 100, refered := 13 }, chain := [{ key := ctKey 2, data := 8, ttl := 100, refered := 11 }] }] },
   [0, 0, -1, 1], [.alloc true, .alloc false],
   { size := 1, ttl := 100, stats := { active := 0, collisions := 2, inserts := 4, rejectedInserts := 1, lookups := 1, objGC := 0 },
     buckets := [{ main := { key := ctKey 1, data := 7, ttl := 100, refered := 13 }, chain := [{ key := ctKey 2, data := 8, ttl := 100, refered := 20 }] }] },
   [.lock 8], by decide +kernel, by decide +kernel, by decide +kernel⟩

/-- A value that was never accepted is never freed, whatever the times. -/
theorem C21_refused_not_freed {size : Nat} (hsize : 0 < size) (ttl : Nat) (ops : List Op) :
    ∃ ct rs ev, run (create size ttl) ops = .ok (ct, rs, ev) ∧ ∀ v, v ≠ 0 → accepted v ops rs = 0 → frees v (ev ++ destroy ct) = 0 := by
  obtain ⟨ct, rs, ev, h1, b⟩ := run_books (create_inv hsize ttl) ops
  refine ⟨ct, rs, ev, h1, ?_⟩
  intro v hv h0
  have hc := b.count v hv
  rw [create_cnt _ (by simpa using hv.symm), h0] at hc
  have hall : ∀ x ∈ ct.buckets, BInv x := by
    intro x hx
    obtain ⟨i, hi⟩ := List.getElem?_of_mem hx
    exact (b.inv.bkt i x hi).1
  have hd := (gcAll_count (fun w => decide (w = v)) (by simpa using hv.symm) (2 ^ 64 - 1) ct.buckets hall).1
  rw [frees_append]
  have : frees v (destroy ct) = freesP (fun w => decide (w = v)) (gcAll (2 ^ 64 - 1) ct.buckets).2.1 := rfl
  omega

/-- A table with one entry that never times out. -/
def leakCt (now : Nat) (k : Key) (data : Nat) : Ct :=
  { size := 1
    ttl := 0
    stats := { active := 0, collisions := 0, inserts := inc 0 1, rejectedInserts := 0, lookups := 0, objGC := inc 0 0 }
    buckets := [{ main := { key := k, data := data, ttl := 2 ^ 64 - 1, refered := now }, chain := [] }] }

/-- What is missing: `ctDestroy` does not free an entry with a ttl that reaches the end of time. -/
theorem C21_destroy_leak (now : Nat) (h : now < 2 ^ 64) (k : Key) (data : Nat) (hd : data ≠ 0) :
    ∃ ct, run (create 1 0) [.insert now k (2 ^ 64 - 1) data true] = .ok (ct, [0], []) ∧ destroy ct = [] := by
  refine ⟨leakCt now k data, ?_, ?_⟩
  · have hb : bucketOf (create 1 0) k = .ok { main := { key := Key.zero, data := 0, ttl := 0, refered := 0 }, chain := [] } := by
      have : slotOf 1 k = 0 := by unfold slotOf; omega
      simp [bucketOf, create, this]
    have hp : prepare { main := { key := Key.zero, data := 0, ttl := 0, refered := 0 }, chain := [] } now =
        ({ main := { key := Key.zero, data := 0, ttl := 0, refered := 0 }, chain := [] }, [], 0) := by
      simp [prepare, gcMain]
    have hi : insertTTL (create 1 0) now k (2 ^ 64 - 1) data true = .ok (leakCt now k data, 0, []) := by
      unfold insertTTL
      rw [if_neg hd, hb]
      simp only [Res.ok_bind, hp]
      have : slotOf 1 k = 0 := by unfold slotOf; omega
      simp [touch, hit, touchChain, setBucket, create, this, leakCt]
    unfold run
    rw [step_insert hi]
    rfl
  · unfold destroy gcAll bucketGC gcMain gcChain leakCt
    have : stale { key := k, data := data, ttl := 2 ^ 64 - 1, refered := now } (2 ^ 64 - 1) = false := by
      unfold stale sub64
      have : (2 ^ 64 - 1 + 2 ^ 64 - now) % 2 ^ 64 = 2 ^ 64 - 1 - now := by omega
      rw [this]
      exact decide_eq_false (by simp)
    simp only [this]
    simp [gcAll]

/-! ### C22 -/

/-- In every history the extra buckets taken and not given back are those of the entries stored outside the table. -/
theorem C22_balance {size : Nat} (hsize : 0 < size) (ttl : Nat) (ops : List Op) :
    ∃ ct rs ev, run (create size ttl) ops = .ok (ct, rs, ev) ∧ bucketsTaken ev = bucketsReturned ev + extraEntries ct := by
  obtain ⟨ct, rs, ev, h1, b⟩ := run_books (create_inv hsize ttl) ops
  refine ⟨ct, rs, ev, h1, ?_⟩
  have hc := b.chain
  rw [create_chain] at hc
  have : extraEntries ct = sumT (fun b => b.chain.length) ct.buckets := rfl
  omega

/-- After `ctDestroy` all have been given back. -/
theorem C22_all_returned {size : Nat} (hsize : 0 < size) (ttl T L : Nat) (hTL : T + L < 2 ^ 64 - 1) (ops : List Op) (ho : Within T L ops) :
    ∃ ct rs ev, run (create size ttl) ops = .ok (ct, rs, ev) ∧
      bucketsTaken (ev ++ destroy ct) = bucketsReturned (ev ++ destroy ct) := by
  obtain ⟨ct, rs, ev, h1, b⟩ := run_books (create_inv hsize ttl) ops
  have hb := run_bounded (create_inv hsize ttl) (create_bounded size ttl T L) ops ho h1
  obtain ⟨_, d2, d3⟩ := destroy_all b.inv hb hTL
  refine ⟨ct, rs, ev, h1, ?_⟩
  have hc := b.chain
  rw [create_chain] at hc
  have : extraEntries ct = sumT (fun b => b.chain.length) ct.buckets := rfl
  rw [taken_append, returned_append, d2, d3]
  omega

/-- An insert of a value fails with -1 only if another live entry occupies the place and the allocator has no bucket; the live entries are then the same
as before. -/
theorem C22_insert_fails {size : Nat} (hsize : 0 < size) (ttl : Nat) (ops : List Op) {ct ct' : Ct} {rs : List Int} {ev ev' : List Ev}
    (hr : run (create size ttl) ops = .ok (ct, rs, ev)) {now t data : Nat} {k : Key} {ok : Bool} (hd : data ≠ 0)
    (hi : insertTTL ct now k t data ok = .ok (ct', -1, ev')) :
    ok = false ∧ (∃ s, Stored ct s ∧ stale s now = false ∧ s.key ≠ k ∧ slotOf size s.key = slotOf size k) ∧
    ∀ s, (Stored ct' s ∧ stale s now = false) ↔ (Stored ct s ∧ stale s now = false) := by
  obtain ⟨c, rs', e, h1, b⟩ := run_books (create_inv hsize ttl) ops
  rw [hr] at h1
  injection h1 with h1
  have e1 : ct = c := congrArg Prod.fst h1
  subst e1
  have hsz : ct.size = size := b.size
  obtain ⟨c', r, e', n, cc, g1, _, g3, g4⟩ := insert_cases b.inv now k t data hd ok
  rw [hi] at g1
  injection g1 with g1
  have e1 : ct' = c' := congrArg Prod.fst g1
  have e2 : (-1 : Int) = r := congrArg (fun x => x.2.1) g1
  subst e1 e2
  rcases g4 with ⟨_, _, h, _⟩ | ⟨_, h, _⟩ | ⟨hn, _, hok, hcc, te⟩
  · exact absurd h (by decide)
  · exact absurd h (by decide)
  · obtain ⟨_, k', k1, k2, k3⟩ := g3.1 hcc
    refine ⟨hok, ?_, ?_⟩
    · cases hl : liveT ct now k' with
      | none => exact absurd hl k3
      | some s =>
        obtain ⟨a1, a2, a3⟩ := stored_of_live hl
        exact ⟨s, a1, a3, by rw [a2]; exact k1, by rw [a2, ← hsz]; exact k2⟩
    · apply stored_congr b.inv te.inv
      intro k0
      by_cases hk : k0 = k
      · subst hk; rw [te.self, hn]; rfl
      · exact te.live k0 hk now (Or.inr rfl)

example : ∃ ct rs ev ct' ev', run (create 1 100) (ctDemo.take 2) = .ok (ct, rs, ev) ∧
    insertTTL ct 12 (ctKey 3) 100 9 false = .ok (ct', -1, ev') :=
  ⟨{ size := 1, ttl := 100, stats := { active := 0, collisions := 1, inserts := 2, rejectedInserts := 0, lookups := 0, objGC := 0 },
     buckets := [{ main := { key := ctKey 1, data := 7, ttl := 100, refered := 10 }, chain := [{ key := ctKey 2, data := 8, ttl := 100, refered := 11 }] }] },
   [0, 0], [.alloc true],
   { size := 1, ttl := 100, stats := { active := 0, collisions := 2, inserts := 3, rejectedInserts := 1, lookups := 0, objGC := 0 },
     buckets := [{ main := { key := ctKey 1, data := 7, ttl := 100, refered := 10 }, chain := [{ key := ctKey 2, data := 8, ttl := 100, refered := 11 }] }] },
   [.alloc false], by decide +kernel, by decide +kernel⟩

/-- Inserting NULL is refused and changes nothing. -/
theorem C22_insert_null (ct : Ct) (now t : Nat) (k : Key) (ok : Bool) : insertTTL ct now k t 0 ok = .ok (ct, -1, []) := rfl

/-! ### C23 -/

/-- What the property needs: a stored entry that was last referenced at or before the time of the lookup, and not longer than its ttl ago, is found, after
any history (with time stamps in any order). -/
theorem C23_found_partial {size : Nat} (hsize : 0 < size) (ttl : Nat) (ops : List Op) {ct : Ct} {rs : List Int} {ev : List Ev}
    (hr : run (create size ttl) ops = .ok (ct, rs, ev)) {s : Slot} (hs : Stored ct s) {now : Nat} (h1 : s.refered ≤ now) (h2 : now ≤ s.refered + s.ttl)
    (h64 : now < 2 ^ 64) : ∃ ct' ev', lookup ct now s.key = .ok (ct', s.data, ev') ∧ Stored ct' { s with refered := now } := by
  obtain ⟨c, rs', e, g1, b⟩ := run_books (create_inv hsize ttl) ops
  rw [hr] at g1
  injection g1 with g1
  have e1 : ct = c := congrArg Prod.fst g1
  subst e1
  have hf : stale s now = false := by
    have := stale_false h1 h64
    rw [decide_eq_true h2] at this
    simpa using this
  have hl := live_of_stored b.inv hs hf
  obtain ⟨ct', v, ev', n, l1, _, l3⟩ := lookup_cases b.inv now s.key
  rcases l3 with ⟨x, x1, x2, _, te⟩ | ⟨hn, _⟩
  · rw [hl] at x1
    injection x1 with x1
    subst x1
    refine ⟨ct', ev', by rw [l1, x2], ?_⟩
    have hself := te.self
    rw [Option.filter_some] at hself
    have hfresh : stale { s with refered := now } now = false := by
      unfold stale sub64
      have : (now + 2 ^ 64 - now) % 2 ^ 64 = 0 := by omega
      simp only [this]
      exact decide_eq_false (by omega)
    rw [hfresh] at hself
    simp only [Bool.not_false, if_true] at hself
    exact (stored_of_live hself).1
  · rw [hl] at hn; cases hn

/-- The code violates it: an entry referenced at `t2` is freed by a lookup of its own key that read the clock at an earlier `t1` but got the lock later.
All ttls below 2^64 - (t2 - t1) are concerned; a difference of one nanosecond is enough. -/
theorem C23_violated {size : Nat} (hsize : 0 < size) (ct0ttl t1 t2 ttl data : Nat) (h12 : t1 < t2) (h64 : t2 < 2 ^ 64) (httl : ttl < 2 ^ 64 - (t2 - t1))
    (hd : data ≠ 0) (k : Key) (ok : Bool) :
    ∃ ct ev, run (create size ct0ttl) [.insert t2 k ttl data ok, .lookup t1 k] = .ok (ct, [0, 0], ev) ∧ frees data ev = 1 ∧ ∀ s, ¬ Stored ct s := by
  have hinv := create_inv hsize ct0ttl
  have hz : ∀ t k', liveT (create size ct0ttl) t k' = none := by
    intro t k'
    have := create_rel (size := size) ct0ttl t k'
    unfold TtlMap.live TtlMap.empty at this
    cases hx : liveT (create size ct0ttl) t k' with
    | none => rfl
    | some x => rw [hx] at this; simp at this
  obtain ⟨c1, r, e1, n, cc, g1, _, g3, g4⟩ := insert_cases hinv t2 k ttl data hd ok
  have hcc : cc = true → False := by
    intro h
    obtain ⟨_, k', _, _, k3⟩ := g3.1 h
    exact k3 (hz t2 k')
  rcases g4 with ⟨x, x1, _⟩ | ⟨_, hr, te⟩ | ⟨_, _, _, h, _⟩
  · rw [hz] at x1; cases x1
  · subst hr
    have hst : stale { key := k, data := data, ttl := ttl, refered := t2 } t1 = true := by
      unfold stale sub64
      have : (t1 + 2 ^ 64 - t2) % 2 ^ 64 = 2 ^ 64 - (t2 - t1) := by clear g3 hcc; omega
      simp only [this]
      exact decide_eq_true httl
    -- all that is stored is the new entry
    have honly : ∀ s, Stored c1 s → s = { key := k, data := data, ttl := ttl, refered := t2 } := by
      intro s hs
      obtain ⟨⟨b, hb, hm⟩, hsd⟩ := stored_iff.1 hs
      rcases te.sub b hb s hm hsd with ⟨b0, hb0, hs0⟩ | ⟨_, _, ha⟩
      · exfalso
        simp only [create] at hb0
        rw [List.eq_of_mem_replicate hb0] at hs0
        simp [slots] at hs0
        subst hs0
        exact hsd rfl
      · injection ha with ha; exact ha.symm
    have hno : ∀ k', liveT c1 t1 k' = none := by
      intro k'
      cases hx : liveT c1 t1 k' with
      | none => rfl
      | some x =>
        obtain ⟨a1, _, a3⟩ := stored_of_live hx
        rw [honly x a1, hst] at a3
        cases a3
    obtain ⟨c2, v, e2, n2, l1, _, l3⟩ := lookup_cases te.inv t1 k
    rcases l3 with ⟨x, x1, _⟩ | ⟨_, hv, te2⟩
    · rw [hno] at x1; cases x1
    · subst hv
      have hnone : ∀ s, ¬ Stored c2 s := by
        intro s hs
        have hold : Stored c1 s := by
          obtain ⟨⟨b, hb, hm⟩, hsd⟩ := stored_iff.1 hs
          rcases te2.sub b hb s hm hsd with h | ⟨_, _, ha⟩
          · exact stored_iff.2 ⟨h, hsd⟩
          · cases ha
        have hse := honly s hold
        obtain ⟨⟨b, hb, hm⟩, hsd⟩ := stored_iff.1 hs
        -- the bucket was collected at time t1
        obtain ⟨bk, hbk, hok⟩ := bucket_exists te.inv k
        have hl := l1
        unfold lookup at hl
        rw [hok] at hl
        simp only [Res.ok_bind] at hl
        rcases hp : prepare bk t1 with ⟨p, pe, pn⟩
        rw [hp] at hl
        simp only at hl
        have hfr := prepare_fresh bk t1
        rw [hp] at hfr
        have hB := (te.inv.bkt _ bk hbk).1
        have htn : touch t1 k p = none := by
          rw [touch_none]
          have := view_prepare hB t1 k
          rw [hp] at this
          simp only at this
          rw [this, ← liveT_eq hbk]
          exact hno k
        rw [htn] at hl
        simp only [Res.pure_eq] at hl
        injection hl with hl
        have hc2 : _ = c2 := congrArg Prod.fst hl
        rw [← hc2] at hb
        simp only [setBucket] at hb
        have hstale : stale s t1 = true := by rw [hse]; exact hst
        have hslot : slotOf c1.size s.key = slotOf c1.size k := by rw [hse]
        obtain ⟨i, hi⟩ := List.getElem?_of_mem hb
        rw [List.getElem?_set] at hi
        split at hi
        · split at hi
          · injection hi with hi
            subst hi
            rcases mem_slots.1 hm with e | hm
            · rw [← e] at hfr; rw [hfr.2 hsd] at hstale; cases hstale
            · rw [hfr.1 s hm] at hstale; cases hstale
          · cases hi
        · next hne =>
          have := (te.inv.bkt i b hi).2 s hm hsd
          exact hne (by rw [← hslot, this])
      refine ⟨c2, e1 ++ (e2 ++ []), ?_, ?_, hnone⟩
      · simp only [run, step_insert g1, step_of l1, Res.ok_bind, Res.pure_eq]
        rfl
      · have c1' := te.books.1 data hd
        have c2' := te2.books.1 data hd
        rw [create_cnt _ (by simpa using hd.symm)] at c1'
        have hzero : sumT (cntB (fun w => decide (w = data))) c2.buckets = 0 := by
          apply sumT_zero
          intro b hb
          unfold cntB
          rw [List.countP_eq_zero]
          intro s hs hdd
          have : s.data = data := of_decide_eq_true hdd
          exact hnone s (stored_iff.2 ⟨⟨b, hb, hs⟩, by rw [this]; exact hd⟩)
        simp only [if_true, reduceCtorEq, if_false] at c1' c2'
        rw [frees_append, List.append_nil]
        omega
  · exact absurd h (fun h => hcc h)

example : (do let x ← run (create 1 100) [.insert 11 (ctKey 1) 100 7 true, .lookup 10 (ctKey 1)]; return x.2) = .ok ([0, 0], [.free 7 .gc]) := by decide +kernel

/-! ### C24 -/

/-- The number of active entries is the number of live keys. -/
theorem C24_active {size : Nat} (hsize : 0 < size) (ttl t : Nat) (ops : List Op) (now : Nat) (ht : TimesFrom t (ops ++ [.stats now])) :
    ∃ ct rs ev m, ∃ l : List Key, run (create size ttl) (ops ++ [.stats now]) = .ok (ct, rs, ev) ∧ MapRun (slotOf size) TtlMap.empty (ops ++ [.stats now]) rs m ∧
      l.Nodup ∧ (∀ k, k ∈ l ↔ m.live now k ≠ none) ∧ ct.stats.active = u32 l.length := by
  have split : ∀ (os : List Op) (t : Nat), TimesFrom t (os ++ [.stats now]) → TimesFrom t os ∧ lastTime t os ≤ now ∧ now < 2 ^ 64 := by
    intro os
    induction os with
    | nil => intro t h; exact ⟨trivial, h.1, h.2.1⟩
    | cons o os ih =>
      intro t h
      obtain ⟨a, b, c⟩ := h
      obtain ⟨d, e, f⟩ := ih _ c
      exact ⟨⟨a, b, d⟩, e, f⟩
  obtain ⟨t1, t2, t3⟩ := split ops t ht
  obtain ⟨ct1, rs1, ev1, m, n, h1, h2, h3, h4, h5, h6, _⟩ :=
    run_refines (create_inv hsize ttl) (m := TtlMap.empty) ops t1 (create_tinv size ttl t) (create_rel ttl t)
  have hR := h6.advance h5 t2 t3
  obtain ⟨ct2, ev2, n2, g1, _, _, _, g5, _⟩ := stats_cases h3 now
  obtain ⟨l, l1, l2, l3⟩ := active_exact h3 hR g1
  refine ⟨ct2, rs1 ++ [0], ev1 ++ ev2, m, l, ?_, ?_, l1, l2, l3⟩
  · apply run_append h1
    simp only [run, step_stats g1, Res.ok_bind, Res.pure_eq, List.append_nil]
  · have snoc : ∀ {m0 m1 os rs}, MapRun (slotOf size) m0 os rs m1 → MapRun (slotOf size) m0 (os ++ [.stats now]) (rs ++ [0]) m1 := by
      intro m0 m1 os rs h
      induction h with
      | nil => exact .cons .stats .nil
      | cons a _ ih => exact .cons a ih
    exact snoc (CollRun.mapRun h2)

/-- The counters of lookups, inserts, refused inserts and collected values are exact, modulo 2^32, for every history. -/
theorem C24_counters {size : Nat} (hsize : 0 < size) (ttl : Nat) (ops : List Op) :
    ∃ ct rs ev, run (create size ttl) ops = .ok (ct, rs, ev) ∧
      ct.stats.lookups = u32 (lookupOps ops) ∧ ct.stats.inserts = u32 (insertOps ops) ∧
      ct.stats.rejectedInserts = u32 (refused ops rs) ∧ ct.stats.objGC = u32 (collected ev) := by
  obtain ⟨ct, rs, ev, h1, b⟩ := run_books (create_inv hsize ttl) ops
  refine ⟨ct, rs, ev, h1, ?_, ?_, ?_, ?_⟩
  · simpa using b.lookups 0 rfl
  · simpa using b.inserts 0 rfl
  · simpa using b.rejected 0 rfl
  · have := b.objGC 0 rfl
    rw [Nat.zero_add] at this
    exact this

/-- Accepted inserts are the stored values plus the removed plus the collected ones. -/
theorem C24_balance {size : Nat} (hsize : 0 < size) (ttl : Nat) (ops : List Op) :
    ∃ ct rs ev, run (create size ttl) ops = .ok (ct, rs, ev) ∧
      acceptedAll ops rs = storedValues ct + removedValues ev + collected ev := by
  obtain ⟨ct, rs, ev, h1, b⟩ := run_books (create_inv hsize ttl) ops
  refine ⟨ct, rs, ev, h1, ?_⟩
  have ht := b.total
  rw [create_cnt _ (by simp)] at ht
  have hs : storedValues ct = sumT (cntB (fun w => decide (w ≠ 0))) ct.buckets := rfl
  have hnz := run_nonzero (create_inv hsize ttl) ops h1
  rw [freesP_split hnz] at ht
  omega

/-- Collisions are counted exactly when a new key is inserted while another live key has the same place. -/
theorem C24_collisions {size : Nat} (hsize : 0 < size) (ttl t : Nat) (ops : List Op) (ht : TimesFrom t ops) :
    ∃ ct rs ev m n, run (create size ttl) ops = .ok (ct, rs, ev) ∧ CollRun (slotOf size) TtlMap.empty ops rs m n ∧
      ct.stats.collisions = u32 n := by
  obtain ⟨ct, rs, ev, m, n, h1, h2, _, _, _, _, h7⟩ :=
    run_refines (create_inv hsize ttl) (m := TtlMap.empty) ops ht (create_tinv size ttl t) (create_rel ttl t)
  refine ⟨ct, rs, ev, m, n, h1, h2, ?_⟩
  have := h7 0 rfl
  rwa [Nat.zero_add] at this

example : (do let x ← run (create 1 100) ctDemo; return x.1.stats) =
    .ok { active := 1, collisions := 2, inserts := 4, rejectedInserts := 1, lookups := 3, objGC := 1 } := by decide +kernel

end Nfqlb.Props
