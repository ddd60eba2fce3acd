import Verif.Proof.ConntrackOps

set_option autoImplicit false

namespace Nfqlb.Ct

open Spec

/-! ### Each operation -/

theorem liveT_eq {ct : Ct} {k : Key} {b : Bucket} (hb : ct.buckets[slotOf ct.size k]? = some b) (now : Nat) :
    liveT ct now k = liveB b now k := by unfold liveT; rw [hb]; rfl

theorem Eff.snoc {b b' : Bucket} {now : Nat} {k : Key} {ev : List Ev} {n : Nat} {after : Option Slot} {add : Option Nat}
    (e : Eff b b' now k ev n after add) (x : Ev) (h1 : ∀ P, freesP P [x] = 0) (h2 : gcs [x] = 0) (h3 : bucketsTaken [x] = 0)
    (h4 : bucketsReturned [x] = 0) : Eff b b' now k (ev ++ [x]) n after add where
  inv := e.inv
  view := e.view
  sub := e.sub
  count := by intro P h0; simpa [h1] using e.count P h0
  chain := by simpa [h3, h4] using e.chain
  gc := by simpa [h2] using e.gc

theorem lookup_cases {ct : Ct} (h : Inv ct) (now : Nat) (k : Key) :
    ∃ ct' v ev n, lookup ct now k = .ok (ct', v, ev) ∧
      ct'.stats = { ct.stats with objGC := inc ct.stats.objGC n, lookups := inc ct.stats.lookups 1 } ∧
      ((∃ s, liveT ct now k = some s ∧ s.data = v ∧ v ≠ 0 ∧ TEff ct ct' now k ev n (some { s with refered := now }) none) ∨
       (liveT ct now k = none ∧ v = 0 ∧ TEff ct ct' now k ev n none none)) := by
  obtain ⟨b, hb, hok⟩ := bucket_exists h k
  have hB := (h.bkt _ b hb).1
  unfold lookup
  rw [hok]
  simp only [Res.ok_bind]
  rcases hp : prepare b now with ⟨p, ev, n⟩
  have e1 : (prepare b now).1 = p := by rw [hp]
  have e2 : (prepare b now).2.1 = ev := by rw [hp]
  have e3 : (prepare b now).2.2 = n := by rw [hp]
  simp only
  cases ht : touch now k p with
  | some x =>
    obtain ⟨b', v⟩ := x
    obtain ⟨s, s1, s2, s3, s4⟩ := touch_eff hB (e1 ▸ ht)
    rw [e2, e3] at s4
    refine ⟨_, v, _, n, rfl, rfl, Or.inl ⟨s, ?_, s2, ?_, ?_⟩⟩
    · rw [liveT_eq hb]; exact s1
    · rw [← s2]; exact s3
    · exact eff_table h hb (s4.snoc (.lock v) (by simp) (by simp) (by simp) (by simp)) _
  | none =>
    have pe := prepare_eff hB now k
    have hn : liveB b now k = none := by
      rw [← view_prepare hB, e1]; exact touch_none.1 ht
    rw [e1, e2, e3, hn] at pe
    refine ⟨_, 0, _, n, rfl, rfl, Or.inr ⟨?_, rfl, eff_table h hb pe _⟩⟩
    rw [liveT_eq hb]; exact hn

theorem used_iff {b : Bucket} (hb : BInv b) : (b.main.data ≠ 0 ∨ b.chain ≠ []) ↔ ∃ k, view b k ≠ none := by
  constructor
  · rintro (h | h)
    · refine ⟨b.main.key, ?_⟩
      unfold view slots
      rw [List.find?_cons_of_pos (hit_iff.2 ⟨h, rfl⟩)]
      simp
    · obtain ⟨s, r, hc⟩ := List.exists_cons_of_ne_nil h
      refine ⟨s.key, ?_⟩
      unfold view slots
      intro hn
      rw [List.find?_eq_none] at hn
      have hs : s ∈ b.chain := by rw [hc]; exact List.mem_cons_self
      exact hn s (List.mem_cons_of_mem _ hs) (hit_iff.2 ⟨hb.data s hs, rfl⟩)
  · rintro ⟨k, hk⟩
    cases hv : view b k with
    | none => exact absurd hv hk
    | some s =>
      have hm := List.mem_of_find?_eq_some hv
      have hh := hit_iff.1 (List.find?_some hv)
      unfold slots at hm
      rcases List.mem_cons.1 hm with rfl | hm
      · exact Or.inl hh.1
      · right; intro h; rw [h] at hm; exact absurd hm (by simp)

theorem live_slot {ct : Ct} (h : Inv ct) {i : Nat} {b : Bucket} (hb : ct.buckets[i]? = some b) {now : Nat} {k : Key}
    (hv : liveB b now k ≠ none) : slotOf ct.size k = i := by
  unfold liveB at hv
  cases hw : view b k with
  | none => rw [hw] at hv; exact absurd rfl hv
  | some s =>
    have hm := List.mem_of_find?_eq_some hw
    have hh := hit_iff.1 (List.find?_some hw)
    rw [← hh.2]
    exact (h.bkt i b hb).2 s hm hh.1

/-- The bucket of `k` is used at time `now` by another key. -/
theorem used_table {ct : Ct} (h : Inv ct) {k : Key} {b : Bucket} (hb : ct.buckets[slotOf ct.size k]? = some b) {now : Nat}
    (hn : liveT ct now k = none) :
    ((prepare b now).1.main.data ≠ 0 ∨ (prepare b now).1.chain ≠ []) ↔
      ∃ k', k' ≠ k ∧ slotOf ct.size k' = slotOf ct.size k ∧ liveT ct now k' ≠ none := by
  have hB := (h.bkt _ b hb).1
  rw [used_iff (prepare_inv hB now)]
  constructor
  · rintro ⟨k', hk'⟩
    rw [view_prepare hB] at hk'
    have hs := live_slot h hb hk'
    refine ⟨k', ?_, hs, ?_⟩
    · rintro rfl
      rw [liveT_eq hb] at hn
      exact hk' hn
    · unfold liveT
      rw [hs, hb]
      exact hk'
  · rintro ⟨k', _, hs, hl⟩
    refine ⟨k', ?_⟩
    rw [view_prepare hB]
    unfold liveT at hl
    rw [hs, hb] at hl
    exact hl

/-- Results of `insertTTL`, with the effect on counters. -/
theorem insert_cases {ct : Ct} (h : Inv ct) (now : Nat) (k : Key) (ttl data : Nat) (hd : data ≠ 0) (ok : Bool) :
    ∃ ct' r ev n c, insertTTL ct now k ttl data ok = .ok (ct', r, ev) ∧
      ct'.stats = { ct.stats with
        objGC := inc ct.stats.objGC n,
        inserts := inc ct.stats.inserts 1,
        collisions := if c = true then inc ct.stats.collisions 1 else ct.stats.collisions,
        rejectedInserts := if r = -1 then inc ct.stats.rejectedInserts 1 else ct.stats.rejectedInserts } ∧
      (c = true ↔ liveT ct now k = none ∧ ∃ k', k' ≠ k ∧ slotOf ct.size k' = slotOf ct.size k ∧ liveT ct now k' ≠ none) ∧
      ((∃ s, liveT ct now k = some s ∧ r = 1 ∧ s.data ≠ 0 ∧ TEff ct ct' now k ev n (some { s with refered := now }) none) ∨
       (liveT ct now k = none ∧ r = 0 ∧ TEff ct ct' now k ev n (some { key := k, data := data, ttl := ttl, refered := now }) (some data)) ∨
       (liveT ct now k = none ∧ r = -1 ∧ ok = false ∧ c = true ∧ TEff ct ct' now k ev n none none)) := by
  obtain ⟨b, hb, hok⟩ := bucket_exists h k
  have hB := (h.bkt _ b hb).1
  unfold insertTTL
  rw [if_neg hd, hok]
  simp only [Res.ok_bind]
  rcases hp : prepare b now with ⟨p, ev, n⟩
  have e1 : (prepare b now).1 = p := by rw [hp]
  have e2 : (prepare b now).2.1 = ev := by rw [hp]
  have e3 : (prepare b now).2.2 = n := by rw [hp]
  simp only
  cases ht : touch now k p with
  | some x =>
    obtain ⟨b', v⟩ := x
    obtain ⟨s, s1, s2, s3, s4⟩ := touch_eff hB (e1 ▸ ht)
    rw [e2, e3] at s4
    rw [← liveT_eq hb] at s1
    refine ⟨_, 1, _, n, false, rfl, rfl, ?_, Or.inl ⟨s, s1, rfl, s3, eff_table h hb s4 _⟩⟩
    rw [s1]; simp
  | none =>
    have hn : liveT ct now k = none := by
      rw [liveT_eq hb, ← view_prepare hB, e1]; exact touch_none.1 ht
    have hu := used_table h hb hn
    rw [e1] at hu
    simp only
    by_cases hm : p.main.data = 0
    · rw [if_pos hm]
      obtain ⟨_, pe⟩ := put_main_eff (ttl := ttl) hB hd (e1 ▸ ht) (e1 ▸ hm)
      rw [e1, e2, e3] at pe
      by_cases hc : p.chain = []
      · rw [if_neg (by simp [hc])]
        refine ⟨_, 0, _, n, false, rfl, rfl, ?_, Or.inr (Or.inl ⟨hn, rfl, eff_table h hb pe _⟩)⟩
        constructor
        · intro h; cases h
        · intro h'
          rcases hu.2 h'.2 with h | h
          · exact absurd hm h
          · exact absurd hc h
      · rw [if_pos (by simpa using hc)]
        refine ⟨_, 0, _, n, true, rfl, rfl, ?_, Or.inr (Or.inl ⟨hn, rfl, eff_table h hb pe _⟩)⟩
        simp only [true_iff]
        exact ⟨hn, hu.1 (Or.inr hc)⟩
    · rw [if_neg hm]
      have hcol : (true = true ↔ liveT ct now k = none ∧ ∃ k', k' ≠ k ∧ slotOf ct.size k' = slotOf ct.size k ∧ liveT ct now k' ≠ none) := by
        simp only [true_iff]
        exact ⟨hn, hu.1 (Or.inl hm)⟩
      cases ok with
      | true =>
        obtain ⟨_, pe⟩ := put_chain_eff (ttl := ttl) hB hd (e1 ▸ ht) (e1 ▸ hm)
        rw [e1, e2, e3] at pe
        exact ⟨_, 0, _, n, true, rfl, rfl, hcol, Or.inr (Or.inl ⟨hn, rfl, eff_table h hb pe _⟩)⟩
      | false =>
        have pe := prepare_eff hB now k
        rw [← liveT_eq hb, hn, e1, e2, e3] at pe
        exact ⟨_, -1, _, n, true, rfl, rfl, hcol, Or.inr (Or.inr ⟨hn, rfl, rfl, rfl,
          eff_table h hb (pe.snoc (.alloc false) (by simp) (by simp) (by simp) (by simp)) _⟩)⟩

theorem remove_cases {ct : Ct} (h : Inv ct) (now : Nat) (k : Key) :
    ∃ ct' ev n, remove ct now k = .ok (ct', ev) ∧ ct'.stats = { ct.stats with objGC := inc ct.stats.objGC n } ∧
      TEff ct ct' now k ev n none none := by
  obtain ⟨b, hb, hok⟩ := bucket_exists h k
  have hB := (h.bkt _ b hb).1
  unfold remove
  rw [hok]
  simp only [Res.ok_bind]
  rcases hp : prepare b now with ⟨p, ev, n⟩
  have e1 : (prepare b now).1 = p := by rw [hp]
  have e2 : (prepare b now).2.1 = ev := by rw [hp]
  have e3 : (prepare b now).2.2 = n := by rw [hp]
  simp only
  by_cases hk : p.main.key = k
  · rw [if_pos hk]
    have pe := clear_main_eff hB (e1 ▸ hk)
    rw [e1, e2, e3] at pe
    exact ⟨_, _, n, rfl, rfl, eff_table h hb pe _⟩
  · rw [if_neg hk]
    have pe := remove_chain_eff hB (k := k) (now := now) (by rw [e1]; exact hk)
    rw [e1, e2, e3] at pe
    exact ⟨_, _, n, rfl, rfl, eff_table h hb pe _⟩

/-! ### Collecting the whole table -/

theorem gcAll_fst (now : Nat) : ∀ l, (gcAll now l).1 = l.map (fun b => (prepare b now).1) := by
  intro l
  induction l with
  | nil => rfl
  | cons b r ih =>
    unfold gcAll
    rw [bucketGC_eq]
    rcases hg : gcAll now r with ⟨r', e, n, a⟩
    rw [hg] at ih
    simp only at ih
    simp [ih]

theorem cnt_nonzero (b : Bucket) (hb : BInv b) : cntB (fun v => decide (v ≠ 0)) b = (if b.main.data ≠ 0 then 1 else 0) + b.chain.length := by
  unfold cntB slots
  simp only [List.countP_cons]
  have : b.chain.countP (fun s => decide (s.data ≠ 0)) = b.chain.length := by
    rw [List.countP_eq_length]
    intro s hs
    simpa using hb.data s hs
  rw [this]
  simp
  omega

theorem gcAll_count (P : Nat → Bool) (h0 : P 0 = false) (now : Nat) : ∀ (l : List Bucket), (∀ b ∈ l, BInv b) →
    sumT (cntB P) (gcAll now l).1 + freesP P (gcAll now l).2.1 = sumT (cntB P) l ∧
    gcs (gcAll now l).2.1 = (gcAll now l).2.2.1 ∧ bucketsTaken (gcAll now l).2.1 = 0 ∧
    sumT (fun b => b.chain.length) (gcAll now l).1 + bucketsReturned (gcAll now l).2.1 = sumT (fun b => b.chain.length) l ∧
    (gcAll now l).2.2.2 = sumT (cntB (fun v => decide (v ≠ 0))) (gcAll now l).1 := by
  intro l
  induction l with
  | nil => intro _; simp [gcAll, sumT]
  | cons b r ih =>
    intro hd
    obtain ⟨i1, i2, i3, i4, i5⟩ := ih (fun x hx => hd x (List.mem_cons_of_mem _ hx))
    have hB := hd b List.mem_cons_self
    obtain ⟨p1, p2, p3, p4⟩ := prepare_count P h0 hB now
    have hc := cnt_nonzero _ (prepare_inv hB now)
    unfold gcAll
    rw [bucketGC_eq]
    rcases hg : gcAll now r with ⟨r', e, n, a⟩
    rw [hg] at i1 i2 i3 i4 i5
    simp only [sumT, List.map_cons, List.sum_cons, freesP_append, gcs_append, taken_append, returned_append] at i1 i2 i3 i4 i5 ⊢
    refine ⟨?_, ?_, ?_, ?_, ?_⟩ <;> omega

theorem stats_cases {ct : Ct} (h : Inv ct) (now : Nat) :
    ∃ ct' ev n, ctStats ct now = (ct', ev) ∧
      ct'.stats = { ct.stats with objGC := inc ct.stats.objGC n, active := u32 (sumT (cntB (fun v => decide (v ≠ 0))) ct'.buckets) } ∧
      Inv ct' ∧ ct'.size = ct.size ∧ (∀ k, liveT ct' now k = liveT ct now k) ∧
      (∀ b' ∈ ct'.buckets, ∀ s ∈ slots b', s.data ≠ 0 → stale s now = false ∧ ∃ b ∈ ct.buckets, s ∈ slots b) ∧
      (∀ P : Nat → Bool, P 0 = false → sumT (cntB P) ct'.buckets + freesP P ev = sumT (cntB P) ct.buckets) ∧
      sumT (fun b => b.chain.length) ct'.buckets + bucketsReturned ev = sumT (fun b => b.chain.length) ct.buckets + bucketsTaken ev ∧
      gcs ev = n := by
  have hall : ∀ b ∈ ct.buckets, BInv b := by
    intro b hb
    obtain ⟨i, hi⟩ := List.getElem?_of_mem hb
    exact (h.bkt i b hi).1
  have hf := gcAll_fst now ct.buckets
  have hc := fun P h0 => gcAll_count P h0 now ct.buckets hall
  unfold ctStats
  rcases hg : gcAll now ct.buckets with ⟨bs, ev, n, a⟩
  rw [hg] at hf hc
  simp only at hf hc
  obtain ⟨_, c2, c3, c4, c5⟩ := hc (fun _ => false) rfl
  refine ⟨_, ev, n, rfl, ?_, ⟨h.pos, ?_, ?_⟩, rfl, ?_, ?_, ?_, ?_, c2⟩
  · simp only [c5]
  · rw [hf]; simp [h.len]
  · intro i b hb
    simp only [hf, List.getElem?_map] at hb
    cases hx : ct.buckets[i]? with
    | none => rw [hx] at hb; simp at hb
    | some x =>
      rw [hx] at hb
      simp only [Option.map_some, Option.some.injEq] at hb
      subst hb
      obtain ⟨b1, b2⟩ := h.bkt i x hx
      exact ⟨prepare_inv b1 now, fun s hs hd => b2 s (prepare_sub x now s hs hd) hd⟩
  · intro k
    unfold liveT
    simp only [hf, List.getElem?_map]
    cases hx : ct.buckets[slotOf ct.size k]? with
    | none => rfl
    | some x =>
      simp only [Option.map_some, Option.bind_some]
      have := (h.bkt _ x hx).1
      conv => lhs; unfold liveB; rw [view_prepare this]; unfold liveB; rw [filter_idem]
      rfl
  · intro b' hb' s hs hd
    rw [hf] at hb'
    obtain ⟨b, hb, rfl⟩ := List.mem_map.1 hb'
    refine ⟨?_, b, hb, prepare_sub b now s hs hd⟩
    obtain ⟨f1, f2⟩ := prepare_fresh b now
    unfold slots at hs
    rcases List.mem_cons.1 hs with rfl | hs
    · exact f2 hd
    · exact f1 s hs
  · intro P h0
    exact (hc P h0).1
  · show sumT (fun b => b.chain.length) bs + _ = _
    omega

/-! ### Accounting, without any assumption about time -/

theorem u32_add (a b : Nat) : u32 (u32 a + b) = u32 (a + b) := by unfold u32; omega

theorem u32_self (a : Nat) : u32 (u32 a) = u32 a := by unfold u32; omega

/-- The counters after a history. -/
structure Books (ct0 ct : Ct) (ops : List Op) (rs : List Int) (ev : List Ev) : Prop where
  inv : Inv ct
  size : ct.size = ct0.size
  count : ∀ v, v ≠ 0 → sumT (cntB (fun w => decide (w = v))) ct.buckets + frees v ev =
    sumT (cntB (fun w => decide (w = v))) ct0.buckets + accepted v ops rs
  total : sumT (cntB (fun w => decide (w ≠ 0))) ct.buckets + freesP (fun w => decide (w ≠ 0)) ev =
    sumT (cntB (fun w => decide (w ≠ 0))) ct0.buckets + acceptedAll ops rs
  chain : sumT (fun b => b.chain.length) ct.buckets + bucketsReturned ev =
    sumT (fun b => b.chain.length) ct0.buckets + bucketsTaken ev
  objGC : ∀ x, ct0.stats.objGC = u32 x → ct.stats.objGC = u32 (x + gcs ev)
  lookups : ∀ x, ct0.stats.lookups = u32 x → ct.stats.lookups = u32 (x + lookupOps ops)
  inserts : ∀ x, ct0.stats.inserts = u32 x → ct.stats.inserts = u32 (x + insertOps ops)
  rejected : ∀ x, ct0.stats.rejectedInserts = u32 x → ct.stats.rejectedInserts = u32 (x + refused ops rs)

theorem inc_u32 {a x : Nat} (h : a = u32 x) (n : Nat) : inc a n = u32 (x + n) := by unfold inc; rw [h, u32_add]

theorem any_eq (d v : Nat) : (some d).any (fun w => decide (w = v)) = decide (d = v) := rfl

theorem TEff.books {ct ct' : Ct} {now : Nat} {k : Key} {ev : List Ev} {n : Nat} {after : Option Slot} {add : Option Nat}
    (e : TEff ct ct' now k ev n after add) :
    (∀ v, v ≠ 0 → sumT (cntB (fun w => decide (w = v))) ct'.buckets + frees v ev =
      sumT (cntB (fun w => decide (w = v))) ct.buckets + (if add = some v then 1 else 0)) ∧
    ((∀ d, add = some d → d ≠ 0) → sumT (cntB (fun w => decide (w ≠ 0))) ct'.buckets + freesP (fun w => decide (w ≠ 0)) ev =
      sumT (cntB (fun w => decide (w ≠ 0))) ct.buckets + (if add.isSome then 1 else 0)) := by
  constructor
  · intro v hv
    have := e.count (fun w => decide (w = v)) (by simpa using hv.symm)
    rw [frees_eq, this]
    cases add with
    | none => simp
    | some d => simp [Option.any]
  · intro hd
    have := e.count (fun w => decide (w ≠ 0)) (by simp)
    rw [this]
    cases add with
    | none => simp
    | some d => simp [Option.any, hd d rfl]

theorem step_of {ct ct' : Ct} {now : Nat} {k : Key} {v : Nat} {ev : List Ev} (h : lookup ct now k = .ok (ct', v, ev)) :
    step ct (.lookup now k) = .ok (ct', (v : Int), ev) := by simp only [step, h, Res.ok_bind]; rfl

theorem step_insert {ct ct' : Ct} {now : Nat} {k : Key} {ttl data : Nat} {ok : Bool} {r : Int} {ev : List Ev}
    (h : insertTTL ct now k ttl data ok = .ok (ct', r, ev)) : step ct (.insert now k ttl data ok) = .ok (ct', r, ev) := by
  simp only [step, h]

theorem step_null {ct : Ct} {now : Nat} {k : Key} {ttl data : Nat} {ok : Bool} (h : data = 0) :
    step ct (.insert now k ttl data ok) = .ok (ct, -1, []) := by
  apply step_insert; unfold insertTTL; rw [if_pos h]

theorem step_remove {ct ct' : Ct} {now : Nat} {k : Key} {ev : List Ev} (h : remove ct now k = .ok (ct', ev)) :
    step ct (.remove now k) = .ok (ct', 0, ev) := by simp only [step, h, Res.ok_bind]; rfl

theorem step_stats {ct ct' : Ct} {now : Nat} {ev : List Ev} (h : ctStats ct now = (ct', ev)) :
    step ct (.stats now) = .ok (ct', 0, ev) := by simp only [step, h]

theorem step_books {ct : Ct} (h : Inv ct) (o : Op) : ∃ ct' r ev, step ct o = .ok (ct', r, ev) ∧ Books ct ct' [o] [r] ev := by
  cases o with
  | lookup now k =>
    obtain ⟨ct', v, ev, n, h1, h2, h3⟩ := lookup_cases h now k
    refine ⟨ct', v, ev, step_of h1, ?_⟩
    have hE : ∃ after, TEff ct ct' now k ev n after none := by
      rcases h3 with ⟨s, _, _, _, e⟩ | ⟨_, _, e⟩
      · exact ⟨_, e⟩
      · exact ⟨_, e⟩
    obtain ⟨after, e⟩ := hE
    obtain ⟨b1, b2⟩ := e.books
    refine ⟨e.inv, e.size, ?_, ?_, e.chain, ?_, ?_, ?_, ?_⟩
    · intro w hw; simpa [accepted] using b1 w hw
    · simpa [acceptedAll] using b2 (by simp)
    · intro x hx; rw [h2, e.gc]; exact inc_u32 hx n
    · intro x hx; rw [h2]; simpa [lookupOps, List.countP_cons] using inc_u32 hx 1
    · intro x hx; rw [h2]; simpa [lookupOps, insertOps, refused, List.countP_cons] using hx
    · intro x hx; rw [h2]; simpa [lookupOps, insertOps, refused, List.countP_cons] using hx
  | insert now k ttl data ok =>
    by_cases hd : data = 0
    · refine ⟨ct, -1, [], step_null hd, ?_⟩
      subst hd
      refine ⟨h, rfl, ?_, ?_, ?_, ?_, ?_, ?_, ?_⟩
      · intro w hw; simp [accepted, frees]
      · simp [acceptedAll]
      · rfl
      · intro x hx; simpa [lookupOps, insertOps, refused, List.countP_cons] using hx
      · intro x hx; simpa [lookupOps, insertOps, refused, List.countP_cons] using hx
      · intro x hx; simpa [lookupOps, insertOps, refused, List.countP_cons] using hx
      · intro x hx; simpa [lookupOps, insertOps, refused, List.countP_cons] using hx
    · obtain ⟨ct', r, ev, n, c, h1, h2, h3, h4⟩ := insert_cases h now k ttl data hd ok
      refine ⟨ct', r, ev, step_insert h1, ?_⟩
      have hE : ∃ after, TEff ct ct' now k ev n after (if r = 0 then some data else none) := by
        rcases h4 with ⟨s, _, rfl, _, e⟩ | ⟨_, rfl, e⟩ | ⟨_, rfl, _, _, e⟩
        · exact ⟨_, e⟩
        · exact ⟨_, e⟩
        · exact ⟨_, e⟩
      obtain ⟨after, e⟩ := hE
      obtain ⟨b1, b2⟩ := e.books
      refine ⟨e.inv, e.size, ?_, ?_, e.chain, ?_, ?_, ?_, ?_⟩
      · intro w hw
        rw [b1 w hw]
        unfold accepted
        by_cases hr : r = 0
        · simp [hr, accepted]
        · simp [hr, accepted]
      · rw [b2 (by intro d; split <;> simp; rintro rfl; exact hd)]
        unfold acceptedAll
        by_cases hr : r = 0
        · simp [hr, acceptedAll]
        · simp [hr, acceptedAll]
      · intro x hx; rw [h2, e.gc]; exact inc_u32 hx n
      · intro x hx; rw [h2]; simpa [lookupOps, insertOps, refused, List.countP_cons] using hx
      · intro x hx; rw [h2]; simp only [insertOps, List.countP_cons, List.countP_nil]; simp [hd, inc_u32 hx 1]
      · intro x hx
        rw [h2]
        simp only [refused]
        by_cases hr : r = -1
        · simp [hr, hd, inc_u32 hx 1]
        · simp [hr, hx]
  | remove now k =>
    obtain ⟨ct', ev, n, h1, h2, e⟩ := remove_cases h now k
    refine ⟨ct', 0, ev, step_remove h1, ?_⟩
    obtain ⟨b1, b2⟩ := e.books
    refine ⟨e.inv, e.size, ?_, ?_, e.chain, ?_, ?_, ?_, ?_⟩
    · intro w hw; simpa [accepted] using b1 w hw
    · simpa [acceptedAll] using b2 (by simp)
    · intro x hx; rw [h2, e.gc]; exact inc_u32 hx n
    · intro x hx; rw [h2]; simpa [lookupOps, insertOps, refused, List.countP_cons] using hx
    · intro x hx; rw [h2]; simpa [lookupOps, insertOps, refused, List.countP_cons] using hx
    · intro x hx; rw [h2]; simpa [lookupOps, insertOps, refused, List.countP_cons] using hx
  | stats now =>
    obtain ⟨ct', ev, n, h1, h2, h3, h4, _, _, h5, h6, h7⟩ := stats_cases h now
    refine ⟨ct', 0, ev, step_stats h1, ?_⟩
    refine ⟨h3, h4, ?_, ?_, h6, ?_, ?_, ?_, ?_⟩
    · intro w hw
      have := h5 (fun x => decide (x = w)) (by simpa using hw.symm)
      simpa [accepted, frees_eq] using this
    · have := h5 (fun x => decide (x ≠ 0)) (by simp)
      simpa [acceptedAll] using this
    · intro x hx; rw [h2, h7]; exact inc_u32 hx n
    · intro x hx; rw [h2]; simpa [lookupOps, insertOps, refused, List.countP_cons] using hx
    · intro x hx; rw [h2]; simpa [lookupOps, insertOps, refused, List.countP_cons] using hx
    · intro x hx; rw [h2]; simpa [lookupOps, insertOps, refused, List.countP_cons] using hx

theorem accepted_cons (v : Nat) (o : Op) (r : Int) (os : List Op) (rs : List Int) :
    accepted v (o :: os) (r :: rs) = accepted v [o] [r] + accepted v os rs := by
  cases o <;> simp [accepted]

theorem acceptedAll_cons (o : Op) (r : Int) (os : List Op) (rs : List Int) :
    acceptedAll (o :: os) (r :: rs) = acceptedAll [o] [r] + acceptedAll os rs := by
  cases o <;> simp [acceptedAll]

theorem refused_cons (o : Op) (r : Int) (os : List Op) (rs : List Int) :
    refused (o :: os) (r :: rs) = refused [o] [r] + refused os rs := by
  cases o <;> simp [refused]

theorem lookupOps_cons (o : Op) (os : List Op) : lookupOps (o :: os) = lookupOps [o] + lookupOps os := by
  unfold lookupOps; simp [List.countP_cons]; omega

theorem insertOps_cons (o : Op) (os : List Op) : insertOps (o :: os) = insertOps [o] + insertOps os := by
  unfold insertOps; simp [List.countP_cons]; omega

theorem frees_append (v : Nat) (a b : List Ev) : frees v (a ++ b) = frees v a + frees v b := by
  rw [frees_eq, frees_eq, frees_eq, freesP_append]

theorem run_books {ct : Ct} (h : Inv ct) (ops : List Op) : ∃ ct' rs ev, run ct ops = .ok (ct', rs, ev) ∧ Books ct ct' ops rs ev := by
  induction ops generalizing ct with
  | nil =>
    refine ⟨ct, [], [], rfl, ⟨h, rfl, ?_, ?_, ?_, ?_, ?_, ?_, ?_⟩⟩
    · intro v hv; simp [accepted, frees]
    · simp [acceptedAll]
    · rfl
    · intro x hx; simpa [lookupOps, insertOps, refused] using hx
    · intro x hx; simpa [lookupOps, insertOps, refused] using hx
    · intro x hx; simpa [lookupOps, insertOps, refused] using hx
    · intro x hx; simpa [lookupOps, insertOps, refused] using hx
  | cons o os ih =>
    obtain ⟨ct1, r, ev, h1, b1⟩ := step_books h o
    obtain ⟨ct2, rs, ev2, h2, b2⟩ := ih b1.inv
    refine ⟨ct2, r :: rs, ev ++ ev2, by unfold run; rw [h1]; simp only [Res.ok_bind]; rw [h2]; rfl, ?_⟩
    refine ⟨b2.inv, by rw [b2.size, b1.size], ?_, ?_, ?_, ?_, ?_, ?_, ?_⟩
    · intro v hv
      have a1 := b1.count v hv
      have a2 := b2.count v hv
      rw [frees_append, accepted_cons]
      omega
    · have a1 := b1.total
      have a2 := b2.total
      rw [freesP_append, acceptedAll_cons]
      omega
    · have a1 := b1.chain
      have a2 := b2.chain
      rw [returned_append, taken_append]
      omega
    · intro x hx
      rw [gcs_append, ← Nat.add_assoc]
      exact b2.objGC _ (b1.objGC x hx)
    · intro x hx
      rw [lookupOps_cons, ← Nat.add_assoc]
      exact b2.lookups _ (b1.lookups x hx)
    · intro x hx
      rw [insertOps_cons, ← Nat.add_assoc]
      exact b2.inserts _ (b1.inserts x hx)
    · intro x hx
      rw [refused_cons, ← Nat.add_assoc]
      exact b2.rejected _ (b1.rejected x hx)

theorem create_cnt (P : Nat → Bool) (h0 : P 0 = false) (size ttl : Nat) : sumT (cntB P) (create size ttl).buckets = 0 := by
  unfold create sumT
  simp only [List.map_replicate]
  have : cntB P { main := { key := Key.zero, data := 0, ttl := 0, refered := 0 }, chain := [] } = 0 := by
    simp [cntB, slots, h0]
  rw [this]
  simp

theorem create_chain (size ttl : Nat) : sumT (fun b => b.chain.length) (create size ttl).buckets = 0 := by
  unfold create sumT
  simp

/-! ### The refinement -/

def entry (s : Slot) : Entry := { value := s.data, last := s.refered, ttl := s.ttl }

/-- The table stores, as far as live, what the map stores. -/
def Rel (ct : Ct) (m : TtlMap) (t : Nat) : Prop := ∀ k, (liveT ct t k).map entry = m.live t k

/-- No entry was referenced after `t`. -/
def TInv (ct : Ct) (t : Nat) : Prop := ∀ b ∈ ct.buckets, ∀ s ∈ slots b, s.data ≠ 0 → s.refered ≤ t

theorem stale_false {s : Slot} {now : Nat} (h : s.refered ≤ now) (h64 : now < 2 ^ 64) : (!stale s now) = decide (now ≤ s.refered + s.ttl) := by
  have : sub64 now s.refered = now - s.refered := by unfold sub64; omega
  unfold stale
  rw [this]
  by_cases hc : now ≤ s.refered + s.ttl
  · have : ¬ (now - s.refered > s.ttl) := by omega
    simp [hc, this]
  · have : now - s.refered > s.ttl := by omega
    simp [hc, this]

theorem filter_filter_le {α : Type} {p q : α → Bool} {o : Option α} (h : ∀ a, o = some a → q a = true → p a = true) :
    (o.filter p).filter q = o.filter q := by
  cases o with
  | none => rfl
  | some a =>
    by_cases hq : q a = true
    · have := h a rfl hq
      simp [Option.filter, this]
    · by_cases hp : p a = true <;> simp [Option.filter, hp, hq]

theorem filter_congr {α : Type} {p q : α → Bool} {o : Option α} (h : ∀ a, o = some a → p a = q a) : o.filter p = o.filter q := by
  cases o with
  | none => rfl
  | some a => have := h a rfl; simp only [Option.filter_some, this]

theorem liveB_advance {b : Bucket} {t t' : Nat} (k : Key) (hr : ∀ s, view b k = some s → s.refered ≤ t) (hle : t ≤ t') (h64 : t' < 2 ^ 64) :
    liveB b t' k = (liveB b t k).filter (fun s => decide (t' ≤ s.refered + s.ttl)) := by
  unfold liveB
  have h1 : ∀ a, view b k = some a → (fun s => decide (t' ≤ s.refered + s.ttl)) a = true → (fun s => !stale s t) a = true := by
    intro a ha hq
    have h1 := stale_false (hr a ha) (Nat.lt_of_le_of_lt hle h64)
    have h2 := of_decide_eq_true hq
    show (!stale a t) = true
    rw [h1]
    exact decide_eq_true (Nat.le_trans hle h2)
  have h2 : ∀ a, view b k = some a → (fun s => !stale s t') a = (fun s => decide (t' ≤ s.refered + s.ttl)) a := by
    intro a ha
    exact stale_false (Nat.le_trans (hr a ha) hle) h64
  rw [filter_filter_le h1]
  exact filter_congr h2

theorem liveT_advance {ct : Ct} {t t' : Nat} (hT : TInv ct t) (hle : t ≤ t') (h64 : t' < 2 ^ 64) (k : Key) :
    liveT ct t' k = (liveT ct t k).filter (fun s => decide (t' ≤ s.refered + s.ttl)) := by
  unfold liveT
  cases hb : ct.buckets[slotOf ct.size k]? with
  | none => rfl
  | some b =>
    simp only [Option.bind_some]
    apply liveB_advance k _ hle h64
    intro s hv
    exact hT b (List.mem_of_getElem? hb) s (List.mem_of_find?_eq_some hv) (hit_iff.1 (List.find?_some hv)).1

theorem live_advance (m : TtlMap) {t t' : Nat} (hle : t ≤ t') (k : Key) :
    m.live t' k = (m.live t k).filter (fun e => decide (t' ≤ e.last + e.ttl)) := by
  unfold TtlMap.live
  rw [filter_filter_le]
  intro a _ hq
  simp at hq ⊢
  omega

theorem Rel.advance {ct : Ct} {m : TtlMap} {t t' : Nat} (h : Rel ct m t) (hT : TInv ct t) (hle : t ≤ t') (h64 : t' < 2 ^ 64) : Rel ct m t' := by
  intro k
  rw [liveT_advance hT hle h64, live_advance m hle, ← h k]
  cases liveT ct t k with
  | none => rfl
  | some s =>
    by_cases hc : t' ≤ s.refered + s.ttl
    · simp [Option.filter, entry, hc]
    · simp [Option.filter, entry, hc]

theorem TInv.mono {ct : Ct} {t t' : Nat} (h : TInv ct t) (hle : t ≤ t') : TInv ct t' :=
  fun b hb s hs hd => Nat.le_trans (h b hb s hs hd) hle

theorem TEff.tinv {ct ct' : Ct} {now : Nat} {k : Key} {ev : List Ev} {n : Nat} {after : Option Slot} {add : Option Nat}
    (e : TEff ct ct' now k ev n after add) (h : TInv ct now) : TInv ct' now := by
  intro b hb s hs hd
  rcases e.sub b hb s hs hd with ⟨b0, hb0, hs0⟩ | ⟨_, hr, _⟩
  · exact h b0 hb0 s hs0 hd
  · omega

/-- The relation after the entry of `k` was replaced. -/
theorem TEff.rel {ct ct' : Ct} {now : Nat} {k : Key} {ev : List Ev} {n : Nat} {after : Option Slot} {add : Option Nat}
    (e : TEff ct ct' now k ev n after add) {m : TtlMap} (h : Rel ct m now) (h64 : now < 2 ^ 64) {x : Option Entry}
    (hx : after.map entry = x) (hr : ∀ s, after = some s → s.refered = now) : Rel ct' (m.set k x) now := by
  intro k'
  by_cases hk : k' = k
  · subst hk
    rw [e.self]
    unfold TtlMap.live TtlMap.set
    rw [if_pos rfl, ← hx]
    cases after with
    | none => rfl
    | some s =>
      have hs := hr s rfl
      have h1 : now ≤ s.refered + s.ttl := by omega
      have h2 : (!stale s now) = true := by rw [stale_false (by omega) h64]; exact decide_eq_true h1
      simp only [Option.map_some, Option.filter_some, h2, entry, h1, decide_true, if_true]
  · rw [e.live k' hk now (Or.inr rfl), h k']
    unfold TtlMap.live TtlMap.set
    rw [if_neg hk]

theorem TEff.rel_same {ct ct' : Ct} {now : Nat} {k : Key} {ev : List Ev} {n : Nat} {add : Option Nat}
    (e : TEff ct ct' now k ev n none add) {m : TtlMap} (h : Rel ct m now) (hn : liveT ct now k = none) : Rel ct' m now := by
  intro k'
  by_cases hk : k' = k
  · subst hk
    rw [e.self, ← h k', hn]
    rfl
  · rw [e.live k' hk now (Or.inr rfl), h k']

theorem Rel.isSome {ct : Ct} {m : TtlMap} {t : Nat} (h : Rel ct m t) (k : Key) : liveT ct t k ≠ none ↔ m.live t k ≠ none := by
  rw [← h k]; cases liveT ct t k <;> simp

/-- One operation refines one step of the map, and counts a collision exactly if there is one. -/
theorem step_refines {ct : Ct} (h : Inv ct) {m : TtlMap} (o : Op) (h64 : opTime o < 2 ^ 64)
    (hT : TInv ct (opTime o)) (hR : Rel ct m (opTime o)) :
    ∃ ct' r ev m', step ct o = .ok (ct', r, ev) ∧ MapStep (slotOf ct.size) m o r m' ∧ Inv ct' ∧ ct'.size = ct.size ∧ TInv ct' (opTime o) ∧
      Rel ct' m' (opTime o) ∧
      ((Collides (slotOf ct.size) m o ∧ ct'.stats.collisions = inc ct.stats.collisions 1) ∨
       (¬ Collides (slotOf ct.size) m o ∧ ct'.stats.collisions = ct.stats.collisions)) := by
  cases o with
  | lookup now k =>
    simp only [opTime] at h64 hT hR ⊢
    obtain ⟨ct', v, ev, n, h1, h2, h3⟩ := lookup_cases h now k
    have hc : ¬ Collides (slotOf ct.size) m (.lookup now k) ∧ ct'.stats.collisions = ct.stats.collisions := ⟨fun h => h, by rw [h2]⟩
    rcases h3 with ⟨s, s1, s2, s3, e⟩ | ⟨s1, s2, e⟩
    · have hl : m.live now k = some (entry s) := by rw [← hR k, s1]; rfl
      refine ⟨ct', v, ev, m.set k (some { entry s with last := now }), step_of h1, ?_, e.inv, e.size, e.tinv hT,
        e.rel hR h64 rfl (by rintro _ ⟨⟩; rfl), Or.inr hc⟩
      have := MapStep.found (slot := slotOf ct.size) hl
      simp only [entry] at this ⊢
      rw [← s2]
      exact this
    · have hl : m.live now k = none := by rw [← hR k, s1]; rfl
      refine ⟨ct', v, ev, m, step_of h1, ?_, e.inv, e.size, e.tinv hT, e.rel_same hR s1, Or.inr hc⟩
      rw [s2]
      exact .notFound hl
  | insert now k ttl data ok =>
    simp only [opTime] at h64 hT hR ⊢
    by_cases hd : data = 0
    · subst hd
      exact ⟨ct, -1, [], m, step_null rfl, .null, h, rfl, hT, hR, Or.inr ⟨fun h => h.1 rfl, rfl⟩⟩
    · obtain ⟨ct', r, ev, n, c, h1, h2, h3, h4⟩ := insert_cases h now k ttl data hd ok
      have hcol : c = true ↔ Collides (slotOf ct.size) m (.insert now k ttl data ok) := by
        rw [h3]
        unfold Collides
        constructor
        · rintro ⟨a, k', a1, a2, a3⟩
          refine ⟨hd, ?_, k', a1, a2, (hR.isSome k').1 a3⟩
          rw [← hR k, a]; rfl
        · rintro ⟨_, a, k', a1, a2, a3⟩
          refine ⟨?_, k', a1, a2, (hR.isSome k').2 a3⟩
          exact Classical.byContradiction (fun hh => (hR.isSome k).1 hh a)
      have hc : (Collides (slotOf ct.size) m (.insert now k ttl data ok) ∧ ct'.stats.collisions = inc ct.stats.collisions 1) ∨
          (¬ Collides (slotOf ct.size) m (.insert now k ttl data ok) ∧ ct'.stats.collisions = ct.stats.collisions) := by
        cases hcc : c with
        | true => left; exact ⟨hcol.1 hcc, by rw [h2]; simp [hcc]⟩
        | false => right; exact ⟨fun hh => (by rw [hcol.2 hh] at hcc; cases hcc), by rw [h2]; simp [hcc]⟩
      rcases h4 with ⟨s, s1, rfl, s3, e⟩ | ⟨s1, rfl, e⟩ | ⟨s1, rfl, rfl, hct, e⟩
      · have hl : m.live now k = some (entry s) := by rw [← hR k, s1]; rfl
        exact ⟨ct', 1, ev, m.set k (some { entry s with last := now }), step_insert h1, .exists hd hl, e.inv, e.size, e.tinv hT,
          e.rel hR h64 rfl (by rintro _ ⟨⟩; rfl), hc⟩
      · have hl : m.live now k = none := by rw [← hR k, s1]; rfl
        exact ⟨ct', 0, ev, m.set k (some { value := data, last := now, ttl := ttl }), step_insert h1, .inserted hd hl, e.inv, e.size,
          e.tinv hT, e.rel hR h64 rfl (by rintro _ ⟨⟩; rfl), hc⟩
      · have hl : m.live now k = none := by rw [← hR k, s1]; rfl
        obtain ⟨_, _, k', a1, a2, a3⟩ := hcol.1 hct
        cases he : m.live now k' with
        | none => exact absurd he a3
        | some e' =>
          exact ⟨ct', -1, ev, m, step_insert h1, .noRoom hd hl a1 a2 he, e.inv, e.size, e.tinv hT, e.rel_same hR s1, hc⟩
  | remove now k =>
    simp only [opTime] at h64 hT hR ⊢
    obtain ⟨ct', ev, n, h1, h2, e⟩ := remove_cases h now k
    exact ⟨ct', 0, ev, m.set k none, step_remove h1, .removed, e.inv, e.size, e.tinv hT, e.rel hR h64 rfl (by simp),
      Or.inr ⟨fun h => h, by rw [h2]⟩⟩
  | stats now =>
    simp only [opTime] at h64 hT hR ⊢
    obtain ⟨ct', ev, n, h1, h2, h3, h4, h5, h6, _⟩ := stats_cases h now
    refine ⟨ct', 0, ev, m, step_stats h1, .stats, h3, h4, ?_, ?_, Or.inr ⟨fun h => h, by rw [h2]⟩⟩
    · intro b hb s hs hd
      obtain ⟨_, b0, hb0, hs0⟩ := h6 b hb s hs hd
      exact hT b0 hb0 s hs0 hd
    · intro k
      rw [h5 k]
      exact hR k

/-- The time of the last operation. -/
def lastTime (t : Nat) (ops : List Op) : Nat := ops.foldl (fun _ o => opTime o) t

theorem run_refines {ct : Ct} (h : Inv ct) {m : TtlMap} {t : Nat} (ops : List Op) (ht : TimesFrom t ops) (hT : TInv ct t) (hR : Rel ct m t) :
    ∃ ct' rs ev m' n, run ct ops = .ok (ct', rs, ev) ∧ CollRun (slotOf ct.size) m ops rs m' n ∧ Inv ct' ∧ ct'.size = ct.size ∧
      TInv ct' (lastTime t ops) ∧ Rel ct' m' (lastTime t ops) ∧
      (∀ x, ct.stats.collisions = u32 x → ct'.stats.collisions = u32 (x + n)) := by
  induction ops generalizing ct m t with
  | nil => exact ⟨ct, [], [], m, 0, rfl, .nil, h, rfl, hT, hR, fun x hx => hx⟩
  | cons o os ih =>
    obtain ⟨t1, t2, t3⟩ := ht
    obtain ⟨ct1, r, ev, m1, a1, a2, a3, a4, a5, a6, a7⟩ := step_refines h (m := m) o t2 (hT.mono t1) (hR.advance hT t1 t2)
    obtain ⟨ct2, rs, ev2, m2, n, b1, b2, b3, b4, b5, b6, b7⟩ := ih a3 t3 a5 a6
    rw [a4] at b2
    have hrun : run ct (o :: os) = .ok (ct2, r :: rs, ev ++ ev2) := by
      unfold run; rw [a1]; simp only [Res.ok_bind]; rw [b1]; rfl
    rcases a7 with ⟨c1, c2⟩ | ⟨c1, c2⟩
    · refine ⟨ct2, r :: rs, ev ++ ev2, m2, n + 1, hrun, .yes a2 c1 b2, b3, by rw [b4, a4], b5, b6, ?_⟩
      intro x hx
      have := b7 (x + 1) (by rw [c2]; exact inc_u32 hx 1)
      rw [this]; congr 1; omega
    · refine ⟨ct2, r :: rs, ev ++ ev2, m2, n, hrun, .no a2 c1 b2, b3, by rw [b4, a4], b5, b6, ?_⟩
      intro x hx
      exact b7 x (by rw [c2]; exact hx)

theorem CollRun.mapRun {slot : Key → Nat} {m m' : TtlMap} {ops : List Op} {rs : List Int} {n : Nat}
    (h : CollRun slot m ops rs m' n) : MapRun slot m ops rs m' := by
  induction h with
  | nil => exact .nil
  | yes a _ _ ih => exact .cons a ih
  | no a _ _ ih => exact .cons a ih

theorem create_rel {size : Nat} (ttl t : Nat) : Rel (create size ttl) TtlMap.empty t := by
  intro k
  unfold TtlMap.live TtlMap.empty
  have : liveT (create size ttl) t k = none := by
    unfold liveT
    cases hb : (create size ttl).buckets[slotOf (create size ttl).size k]? with
    | none => rfl
    | some b =>
      have := List.mem_of_getElem? hb
      simp only [create] at this
      rw [List.eq_of_mem_replicate this]
      rfl
  rw [this]
  rfl

theorem create_tinv (size ttl t : Nat) : TInv (create size ttl) t := by
  intro b hb s hs hd
  simp only [create] at hb
  rw [List.eq_of_mem_replicate hb] at hs
  simp [slots] at hs
  subst hs
  exact absurd rfl hd

end Nfqlb.Ct
