import Verif.Proof.ConntrackRun

set_option autoImplicit false

namespace Nfqlb.Ct

open Spec

theorem mem_slots {b : Bucket} {s : Slot} : s ∈ slots b ↔ s = b.main ∨ s ∈ b.chain := by unfold slots; simp

theorem stored_iff {ct : Ct} {s : Slot} : Stored ct s ↔ (∃ b ∈ ct.buckets, s ∈ slots b) ∧ s.data ≠ 0 := by
  unfold Stored
  constructor
  · rintro ⟨b, hb, hs, hd⟩; exact ⟨⟨b, hb, mem_slots.2 hs⟩, hd⟩
  · rintro ⟨⟨b, hb, hs⟩, hd⟩; exact ⟨b, hb, mem_slots.1 hs, hd⟩

theorem view_mem {b : Bucket} (hb : BInv b) {s : Slot} (hs : s ∈ slots b) (hd : s.data ≠ 0) : view b s.key = some s := by
  obtain ⟨l, r, e⟩ := List.append_of_mem hs
  unfold view
  have hn := hb.nodup
  rw [e] at hn ⊢
  rw [List.find?_append]
  have : l.find? (hit s.key) = none := by
    rw [List.find?_eq_none]
    intro x hx hh
    simp only [List.map_append, List.map_cons, List.nodup_append] at hn
    exact hn.2.2 _ (List.mem_map_of_mem hx) _ (List.mem_cons_self ..) (hit_iff.1 hh).2
  rw [this, List.find?_cons_of_pos (hit_iff.2 ⟨hd, rfl⟩)]
  rfl

theorem live_of_stored {ct : Ct} (h : Inv ct) {s : Slot} (hs : Stored ct s) {now : Nat} (hf : stale s now = false) :
    liveT ct now s.key = some s := by
  obtain ⟨⟨b, hb, hm⟩, hd⟩ := stored_iff.1 hs
  obtain ⟨i, hi⟩ := List.getElem?_of_mem hb
  obtain ⟨hB, hslot⟩ := h.bkt i b hi
  have := hslot s hm hd
  unfold liveT
  rw [this, hi]
  simp only [Option.bind_some]
  unfold liveB
  rw [view_mem hB hm hd]
  simp [Option.filter_some, hf]

theorem stored_of_live {ct : Ct} {now : Nat} {k : Key} {s : Slot} (hl : liveT ct now k = some s) :
    Stored ct s ∧ s.key = k ∧ stale s now = false := by
  unfold liveT at hl
  cases hb : ct.buckets[slotOf ct.size k]? with
  | none => rw [hb] at hl; simp at hl
  | some b =>
    rw [hb] at hl
    simp only [Option.bind_some] at hl
    unfold liveB at hl
    cases hv : view b k with
    | none => rw [hv] at hl; simp at hl
    | some x =>
      rw [hv, Option.filter_some] at hl
      split at hl
      · next hf =>
        injection hl with hl
        subst hl
        have hh := hit_iff.1 (List.find?_some hv)
        exact ⟨stored_iff.2 ⟨⟨b, List.mem_of_getElem? hb, List.mem_of_find?_eq_some hv⟩, hh.1⟩, hh.2, by simpa using hf⟩
      · cases hl

/-- The same entries are live if the lookups of all keys agree. -/
theorem stored_congr {ct ct' : Ct} (h : Inv ct) (h' : Inv ct') {now : Nat} (he : ∀ k, liveT ct' now k = liveT ct now k) (s : Slot) :
    (Stored ct' s ∧ stale s now = false) ↔ (Stored ct s ∧ stale s now = false) := by
  constructor
  · rintro ⟨a, b⟩
    have := live_of_stored h' a b
    rw [he] at this
    exact ⟨(stored_of_live this).1, b⟩
  · rintro ⟨a, b⟩
    have := live_of_stored h a b
    rw [← he] at this
    exact ⟨(stored_of_live this).1, b⟩

/-! ### Bounds on time -/

def Bounded (T L : Nat) (ct : Ct) : Prop := ∀ b ∈ ct.buckets, ∀ s ∈ slots b, s.data ≠ 0 → s.refered ≤ T ∧ s.ttl ≤ L

theorem step_bounded {ct : Ct} (h : Inv ct) {T L : Nat} (hb : Bounded T L ct) (o : Op) (ho : Within T L [o]) {ct' : Ct} {r : Int} {ev : List Ev}
    (hs : step ct o = .ok (ct', r, ev)) : Bounded T L ct' := by
  have ho' := ho o (by simp)
  have key : ∀ {now k n after add} , opTime o = now → TEff ct ct' now k ev n after add → (∀ s, after = some s → s.ttl ≤ L) → Bounded T L ct' := by
    intro now k n after add ht e hl b hb' s hs hd
    rcases e.sub b hb' s hs hd with ⟨b0, hb0, hs0⟩ | ⟨_, hr, ha⟩
    · exact hb b0 hb0 s hs0 hd
    · exact ⟨by rw [hr, ← ht]; exact ho'.1, hl s ha⟩
  have old : ∀ {now k s}, liveT ct now k = some s → s.ttl ≤ L := by
    intro now k s hl
    obtain ⟨hst, _, _⟩ := stored_of_live hl
    obtain ⟨⟨b, hb', hm⟩, hd⟩ := stored_iff.1 hst
    exact (hb b hb' s hm hd).2
  cases o with
  | lookup now k =>
    obtain ⟨c, v, e, n, h1, _, h3⟩ := lookup_cases h now k
    rw [step_of h1] at hs
    injection hs with hs
    have e1 : c = ct' := congrArg Prod.fst hs
    have e2 : e = ev := congrArg (fun x => x.2.2) hs
    subst e1 e2
    rcases h3 with ⟨s, s1, _, _, e⟩ | ⟨_, _, e⟩
    · exact key rfl e (by rintro x ⟨⟩; have := old s1; exact this)
    · exact key rfl e (by simp)
  | insert now k ttl data ok =>
    by_cases hd : data = 0
    · rw [step_null hd] at hs
      injection hs with hs
      have : ct = ct' := congrArg Prod.fst hs
      rw [← this]; exact hb
    · obtain ⟨c, r', e, n, cc, h1, _, _, h4⟩ := insert_cases h now k ttl data hd ok
      rw [step_insert h1] at hs
      injection hs with hs
      have e1 : c = ct' := congrArg Prod.fst hs
      have e2 : e = ev := congrArg (fun x => x.2.2) hs
      subst e1 e2
      rcases h4 with ⟨s, s1, _, _, e⟩ | ⟨_, _, e⟩ | ⟨_, _, _, _, e⟩
      · exact key rfl e (by rintro x ⟨⟩; have := old s1; exact this)
      · exact key rfl e (by rintro x ⟨⟩; exact ho'.2)
      · exact key rfl e (by simp)
  | remove now k =>
    obtain ⟨c, e, n, h1, _, te⟩ := remove_cases h now k
    rw [step_remove h1] at hs
    injection hs with hs
    have e1 : c = ct' := congrArg Prod.fst hs
    have e2 : e = ev := congrArg (fun x => x.2.2) hs
    subst e1 e2
    exact key rfl te (by simp)
  | stats now =>
    obtain ⟨c, e, n, h1, _, _, _, _, h6, _⟩ := stats_cases h now
    rw [step_stats h1] at hs
    injection hs with hs
    have e1 : c = ct' := congrArg Prod.fst hs
    subst e1
    intro b hb' s hs hd
    obtain ⟨_, b0, hb0, hs0⟩ := h6 b hb' s hs hd
    exact hb b0 hb0 s hs0 hd

theorem run_bounded {ct : Ct} (h : Inv ct) {T L : Nat} (hb : Bounded T L ct) (ops : List Op) (ho : Within T L ops) {ct' : Ct} {rs : List Int}
    {ev : List Ev} (hs : run ct ops = .ok (ct', rs, ev)) : Bounded T L ct' := by
  induction ops generalizing ct rs ev with
  | nil =>
    unfold run at hs
    injection hs with hs
    have : ct = ct' := congrArg Prod.fst hs
    rw [← this]; exact hb
  | cons o os ih =>
    obtain ⟨ct1, r, e1, h1, b1⟩ := step_books h o
    obtain ⟨ct2, rs2, e2, h2, _⟩ := run_books b1.inv os
    have hb1 := step_bounded h hb o (fun x hx => ho x (by simp at hx; simp [hx])) h1
    unfold run at hs
    rw [h1] at hs
    simp only [Res.ok_bind] at hs
    rw [h2] at hs
    simp only [Res.ok_bind, Res.pure_eq] at hs
    injection hs with hs
    have : ct2 = ct' := congrArg Prod.fst hs
    rw [this] at h2
    exact ih b1.inv hb1 (fun x hx => ho x (List.mem_cons_of_mem _ hx)) h2

theorem create_bounded (size ttl T L : Nat) : Bounded T L (create size ttl) := by
  intro b hb s hs hd
  simp only [create] at hb
  rw [List.eq_of_mem_replicate hb] at hs
  simp [slots] at hs
  subst hs
  exact absurd rfl hd

theorem destroy_all {ct : Ct} (h : Inv ct) {T L : Nat} (hb : Bounded T L ct) (hTL : T + L < 2 ^ 64 - 1) :
    (∀ v, v ≠ 0 → frees v (destroy ct) = storedTimes v ct) ∧ bucketsReturned (destroy ct) = extraEntries ct ∧ bucketsTaken (destroy ct) = 0 := by
  have hall : ∀ b ∈ ct.buckets, BInv b := by
    intro b hb
    obtain ⟨i, hi⟩ := List.getElem?_of_mem hb
    exact (h.bkt i b hi).1
  have hst : ∀ s : Slot, s.refered ≤ T → s.ttl ≤ L → stale s (2 ^ 64 - 1) = true := by
    intro s h1 h2
    unfold stale sub64
    have : (2 ^ 64 - 1 + 2 ^ 64 - s.refered) % 2 ^ 64 = 2 ^ 64 - 1 - s.refered := by omega
    rw [this]
    exact decide_eq_true (by omega)
  have hempty : ∀ b ∈ ct.buckets, ∀ s ∈ slots (prepare b (2 ^ 64 - 1)).1, s.data = 0 := by
    intro b hb' s hs
    refine Classical.byContradiction (fun hd => ?_)
    have hm := prepare_sub b _ s hs hd
    obtain ⟨a1, a2⟩ := hb b hb' s hm hd
    have a3 := hst s a1 a2
    obtain ⟨f1, f2⟩ := prepare_fresh b (2 ^ 64 - 1)
    rcases mem_slots.1 hs with e | hs
    · rw [← e] at f2; rw [f2 hd] at a3; cases a3
    · rw [f1 s hs] at a3; cases a3
  have hzero : ∀ P : Nat → Bool, P 0 = false → ∀ l : List Bucket, (∀ b ∈ l, b ∈ ct.buckets) →
      sumT (cntB P) (l.map (fun b => (prepare b (2 ^ 64 - 1)).1)) = 0 ∧
      sumT (fun b => b.chain.length) (l.map (fun b => (prepare b (2 ^ 64 - 1)).1)) = 0 := by
    intro P h0 l
    induction l with
    | nil => intro _; exact ⟨rfl, rfl⟩
    | cons b r ih =>
      intro hl
      obtain ⟨i1, i2⟩ := ih (fun x hx => hl x (List.mem_cons_of_mem _ hx))
      have hb' := hl b List.mem_cons_self
      have c1 : cntB P (prepare b (2 ^ 64 - 1)).1 = 0 := by
        unfold cntB
        rw [List.countP_eq_zero]
        intro s hs
        rw [hempty b hb' s hs, h0]
        simp
      have c2 : (prepare b (2 ^ 64 - 1)).1.chain.length = 0 := by
        rw [List.length_eq_zero_iff]
        refine Classical.byContradiction (fun hne => ?_)
        obtain ⟨s, r', hc⟩ := List.exists_cons_of_ne_nil hne
        have hs : s ∈ (prepare b (2 ^ 64 - 1)).1.chain := by rw [hc]; exact List.mem_cons_self
        exact (prepare_inv (hall b hb') _).data s hs (hempty b hb' s (mem_slots.2 (Or.inr hs)))
      unfold sumT at i1 i2 ⊢
      simp only [List.map_cons, List.sum_cons, c1, c2, i1, i2]
      exact ⟨trivial, trivial⟩
  unfold destroy
  refine ⟨?_, ?_, ?_⟩
  · intro v hv
    have h0 : (fun w : Nat => decide (w = v)) 0 = false := by simpa using hv.symm
    have hc := (gcAll_count (fun w => decide (w = v)) h0 (2 ^ 64 - 1) ct.buckets hall).1
    rw [gcAll_fst, (hzero (fun w => decide (w = v)) h0 ct.buckets (fun _ h => h)).1, Nat.zero_add] at hc
    rw [frees_eq, hc]
    rfl
  · have hc := (gcAll_count (fun _ => false) rfl (2 ^ 64 - 1) ct.buckets hall).2.2.2.1
    rw [gcAll_fst, (hzero (fun _ => false) rfl ct.buckets (fun _ h => h)).2, Nat.zero_add] at hc
    rw [hc]
    rfl
  · exact (gcAll_count (fun _ => false) rfl (2 ^ 64 - 1) ct.buckets hall).2.2.1

/-! ### Live entries and their number -/

/-- The keys of the values in a list of buckets. -/
def keysOf : List Bucket → List Key
  | [] => []
  | b :: r => ((slots b).filter (fun s => decide (s.data ≠ 0))).map Slot.key ++ keysOf r

theorem mem_keysOf {l : List Bucket} {k : Key} : k ∈ keysOf l ↔ ∃ b ∈ l, ∃ s ∈ slots b, s.data ≠ 0 ∧ s.key = k := by
  induction l with
  | nil => simp [keysOf]
  | cons b r ih =>
    simp only [keysOf, List.mem_append, List.mem_map, List.mem_filter, ih, List.mem_cons, decide_eq_true_eq]
    constructor
    · rintro (⟨s, ⟨h1, h2⟩, h3⟩ | ⟨b', hb', s, h1, h2, h3⟩)
      · exact ⟨b, Or.inl rfl, s, h1, h2, h3⟩
      · exact ⟨b', Or.inr hb', s, h1, h2, h3⟩
    · rintro ⟨b', rfl | hb', s, h1, h2, h3⟩
      · exact Or.inl ⟨s, ⟨h1, h2⟩, h3⟩
      · exact Or.inr ⟨b', hb', s, h1, h2, h3⟩

theorem keysOf_length (l : List Bucket) : (keysOf l).length = sumT (cntB (fun w => decide (w ≠ 0))) l := by
  induction l with
  | nil => rfl
  | cons b r ih =>
    simp only [keysOf, sumT, List.map_cons, List.sum_cons, List.length_append, List.length_map] at ih ⊢
    rw [ih, ← List.countP_eq_length_filter]
    rfl

theorem keysOf_nodup (f : Key → Nat) (l : List Bucket) (i : Nat)
    (h : ∀ j b, l[j]? = some b → BInv b ∧ ∀ s ∈ slots b, s.data ≠ 0 → f s.key = i + j) : (keysOf l).Nodup := by
  induction l generalizing i with
  | nil => exact List.nodup_nil
  | cons b r ih =>
    obtain ⟨hB, hk⟩ := h 0 b rfl
    simp only [keysOf]
    rw [List.nodup_append]
    refine ⟨(List.filter_sublist.map Slot.key).nodup hB.nodup, ih (i + 1) ?_, ?_⟩
    · intro j b' hb'
      have := h (j + 1) b' (by simpa using hb')
      refine ⟨this.1, fun s hs hd => ?_⟩
      rw [this.2 s hs hd]; omega
    · intro a ha c hc hac
      subst hac
      obtain ⟨s, hs, rfl⟩ := List.mem_map.1 ha
      simp only [List.mem_filter, decide_eq_true_eq] at hs
      have e1 := hk s hs.1 hs.2
      obtain ⟨b', hb', s', hs', hd', he'⟩ := mem_keysOf.1 hc
      obtain ⟨j, hj⟩ := List.getElem?_of_mem hb'
      have e2 := (h (j + 1) b' (by simpa using hj)).2 s' hs' hd'
      rw [he'] at e2
      omega

/-- After collecting everything the counter of active entries is the number of live keys of the map. -/
theorem active_exact {ct ct' : Ct} (h : Inv ct) {m : TtlMap} {now : Nat} (hR : Rel ct m now) {ev : List Ev} (hs : ctStats ct now = (ct', ev)) :
    ∃ l : List Key, l.Nodup ∧ (∀ k, k ∈ l ↔ m.live now k ≠ none) ∧ ct'.stats.active = u32 l.length := by
  obtain ⟨c, e, n, h1, h2, h3, h4, h5, h6, _⟩ := stats_cases h now
  rw [h1] at hs
  have : c = ct' := congrArg Prod.fst hs
  subst this
  refine ⟨keysOf c.buckets, ?_, ?_, ?_⟩
  · apply keysOf_nodup (slotOf c.size) _ 0
    intro j b hb
    obtain ⟨a1, a2⟩ := h3.bkt j b hb
    exact ⟨a1, fun s hs hd => by rw [a2 s hs hd]; omega⟩
  · intro k
    rw [← hR.isSome k, ← h5 k, mem_keysOf]
    constructor
    · rintro ⟨b, hb, s, hs, hd, rfl⟩
      rw [live_of_stored h3 (stored_iff.2 ⟨⟨b, hb, hs⟩, hd⟩) (h6 b hb s hs hd).1]
      simp
    · intro hl
      cases hl' : liveT c now k with
      | none => exact absurd hl' hl
      | some s =>
        obtain ⟨a1, a2, a3⟩ := stored_of_live hl'
        obtain ⟨⟨b, hb, hs⟩, hd⟩ := stored_iff.1 a1
        exact ⟨b, hb, s, hs, hd, a2⟩
  · rw [h2, keysOf_length]

theorem run_append {ct ct1 ct2 : Ct} {os1 os2 : List Op} {r1 r2 : List Int} {e1 e2 : List Ev} (h1 : run ct os1 = .ok (ct1, r1, e1))
    (h2 : run ct1 os2 = .ok (ct2, r2, e2)) : run ct (os1 ++ os2) = .ok (ct2, r1 ++ r2, e1 ++ e2) := by
  induction os1 generalizing ct r1 e1 with
  | nil =>
    unfold run at h1
    injection h1 with h1
    have a : ct = ct1 := congrArg Prod.fst h1
    have b : [] = r1 := congrArg (fun x => x.2.1) h1
    have c : [] = e1 := congrArg (fun x => x.2.2) h1
    subst a b c
    exact h2
  | cons o os ih =>
    unfold run at h1
    cases hs : step ct o with
    | ok x =>
      obtain ⟨c, r, e⟩ := x
      rw [hs] at h1
      simp only [Res.ok_bind] at h1
      cases hr : run c os with
      | ok y =>
        obtain ⟨c', rs, es⟩ := y
        rw [hr] at h1
        simp only [Res.ok_bind, Res.pure_eq] at h1
        injection h1 with h1
        have a : c' = ct1 := congrArg Prod.fst h1
        have b : r :: rs = r1 := congrArg (fun x => x.2.1) h1
        have d : e ++ es = e1 := congrArg (fun x => x.2.2) h1
        subst a b d
        have := ih hr
        rw [List.cons_append]
        unfold run
        rw [hs]
        simp only [Res.ok_bind]
        rw [this]
        simp only [Res.ok_bind, Res.pure_eq, List.cons_append, List.append_assoc]
      | _ => rw [hr] at h1; simp at h1
    | _ => rw [hs] at h1; simp at h1

theorem sumT_zero {f : Bucket → Nat} : ∀ {l : List Bucket}, (∀ b ∈ l, f b = 0) → sumT f l = 0 := by
  intro l
  induction l with
  | nil => intro _; rfl
  | cons b r ih =>
    intro h
    have h1 := h b List.mem_cons_self
    have h2 := ih (fun x hx => h x (List.mem_cons_of_mem _ hx))
    unfold sumT at h2 ⊢
    simp only [List.map_cons, List.sum_cons, h1, h2]

/-! ### NULL is never freed -/

def NZ (ev : List Ev) : Prop := ∀ w why, Ev.free w why ∈ ev → w ≠ 0

theorem NZ.append {a b : List Ev} (ha : NZ a) (hb : NZ b) : NZ (a ++ b) := by
  intro w why h
  rcases List.mem_append.1 h with h | h
  · exact ha w why h
  · exact hb w why h

theorem NZ.nil : NZ [] := by intro w why h; cases h

theorem nz_single {e : Ev} (h : ∀ w why, e = .free w why → w ≠ 0) : NZ [e] := by
  intro w why hm
  simp only [List.mem_singleton] at hm
  exact h w why hm.symm

theorem gcMain_nz (now : Nat) (m : Slot) : NZ (gcMain now m).2.1 := by
  unfold gcMain
  split
  · next h => exact nz_single (by rintro w why ⟨⟩; exact h.1)
  · exact NZ.nil

theorem gcChain_nz (now : Nat) : ∀ c, NZ (gcChain now c).2.1 := by
  intro c
  induction c with
  | nil => exact NZ.nil
  | cons s r ih =>
    unfold gcChain
    rcases hg : gcChain now r with ⟨r', e, n⟩
    rw [hg] at ih
    simp only at ih ⊢
    split
    · refine NZ.append (NZ.append ?_ (nz_single (by simp))) ih
      split
      · next h => exact nz_single (by rintro w why ⟨⟩; exact h)
      · exact NZ.nil
    · exact ih

theorem prepare_nz (b : Bucket) (now : Nat) : NZ (prepare b now).2.1 := by
  rw [prepare_eq]
  exact NZ.append (gcMain_nz now b.main) (gcChain_nz now b.chain)

theorem removeChain_nz (k : Key) : ∀ c, NZ (removeChain k c).2 := by
  intro c
  induction c with
  | nil => exact NZ.nil
  | cons s r ih =>
    unfold removeChain
    split
    · refine NZ.append ?_ (nz_single (by simp))
      split
      · next h => exact nz_single (by rintro w why ⟨⟩; exact h)
      · exact NZ.nil
    · exact ih

theorem gcAll_nz (now : Nat) : ∀ l, NZ (gcAll now l).2.1 := by
  intro l
  induction l with
  | nil => exact NZ.nil
  | cons b r ih =>
    unfold gcAll
    rw [bucketGC_eq]
    exact NZ.append (prepare_nz b now) ih

theorem step_nz {ct ct' : Ct} {o : Op} {r : Int} {ev : List Ev} (hs : step ct o = .ok (ct', r, ev)) : NZ ev := by
  have nb : NZ [Ev.alloc true] := nz_single (by simp)
  have nb' : NZ [Ev.alloc false] := nz_single (by simp)
  cases o with
  | lookup now k =>
    simp only [step, lookup] at hs
    cases hb : bucketOf ct k with
    | ok b =>
      rw [hb] at hs
      simp only [Res.ok_bind, Res.pure_eq] at hs
      cases ht : touch now k (prepare b now).1 with
      | none =>
        rw [ht] at hs
        simp only [Res.ok_bind] at hs
        injection hs with hs
        rw [show ev = _ from (congrArg (fun x => x.2.2) hs).symm]
        exact prepare_nz b now
      | some x =>
        rw [ht] at hs
        simp only [Res.ok_bind] at hs
        injection hs with hs
        rw [show ev = _ from (congrArg (fun x => x.2.2) hs).symm]
        exact NZ.append (prepare_nz b now) (nz_single (by simp))
    | _ => rw [hb] at hs; simp at hs
  | insert now k ttl data ok =>
    simp only [step, insertTTL] at hs
    split at hs
    · injection hs with hs
      rw [show ev = _ from (congrArg (fun x => x.2.2) hs).symm]
      exact NZ.nil
    · cases hb : bucketOf ct k with
      | ok b =>
        rw [hb] at hs
        simp only [Res.ok_bind, Res.pure_eq] at hs
        split at hs
        · injection hs with hs
          rw [show ev = _ from (congrArg (fun x => x.2.2) hs).symm]
          exact prepare_nz b now
        · split at hs
          · injection hs with hs
            rw [show ev = _ from (congrArg (fun x => x.2.2) hs).symm]
            exact prepare_nz b now
          · split at hs
            · injection hs with hs
              rw [show ev = _ from (congrArg (fun x => x.2.2) hs).symm]
              exact NZ.append (prepare_nz b now) nb
            · injection hs with hs
              rw [show ev = _ from (congrArg (fun x => x.2.2) hs).symm]
              exact NZ.append (prepare_nz b now) nb'
      | _ => rw [hb] at hs; simp at hs
  | remove now k =>
    simp only [step, remove] at hs
    cases hb : bucketOf ct k with
    | ok b =>
      rw [hb] at hs
      simp only [Res.ok_bind, Res.pure_eq] at hs
      by_cases hk : (prepare b now).1.main.key = k
      · rw [if_pos hk] at hs
        simp only [Res.ok_bind] at hs
        injection hs with hs
        rw [show ev = _ from (congrArg (fun x => x.2.2) hs).symm]
        refine NZ.append (prepare_nz b now) ?_
        split
        · next h => exact nz_single (by rintro w why ⟨⟩; exact h)
        · exact NZ.nil
      · rw [if_neg hk] at hs
        simp only [Res.ok_bind] at hs
        injection hs with hs
        rw [show ev = _ from (congrArg (fun x => x.2.2) hs).symm]
        exact NZ.append (prepare_nz b now) (removeChain_nz k _)
    | _ => rw [hb] at hs; simp at hs
  | stats now =>
    simp only [step, ctStats] at hs
    injection hs with hs
    rw [show ev = _ from (congrArg (fun x => x.2.2) hs).symm]
    exact gcAll_nz now _

theorem run_nonzero {ct ct' : Ct} (h : Inv ct) (ops : List Op) {rs : List Int} {ev : List Ev} (hs : run ct ops = .ok (ct', rs, ev)) : NZ ev := by
  induction ops generalizing ct rs ev with
  | nil =>
    unfold run at hs
    injection hs with hs
    rw [show ev = _ from (congrArg (fun x => x.2.2) hs).symm]
    exact NZ.nil
  | cons o os ih =>
    obtain ⟨ct1, r, e1, h1, b1⟩ := step_books h o
    obtain ⟨ct2, rs2, e2, h2, _⟩ := run_books b1.inv os
    unfold run at hs
    rw [h1] at hs
    simp only [Res.ok_bind] at hs
    rw [h2] at hs
    simp only [Res.ok_bind, Res.pure_eq] at hs
    injection hs with hs
    have e : ct2 = ct' := congrArg Prod.fst hs
    rw [show ev = _ from (congrArg (fun x => x.2.2) hs).symm]
    rw [e] at h2
    exact NZ.append (step_nz h1) (ih b1.inv h2)

theorem freesP_split {ev : List Ev} (h : NZ ev) : freesP (fun w => decide (w ≠ 0)) ev = removedValues ev + collected ev := by
  induction ev with
  | nil => rfl
  | cons e r ih =>
    have := ih (fun w why hm => h w why (List.mem_cons_of_mem _ hm))
    unfold freesP removedValues collected at this ⊢
    simp only [List.countP_cons]
    cases e with
    | free w why =>
      have hw : w ≠ 0 := h w why List.mem_cons_self
      cases why <;> simp [hw] at this ⊢ <;> omega
    | _ => simp at this ⊢; omega

end Nfqlb.Ct
