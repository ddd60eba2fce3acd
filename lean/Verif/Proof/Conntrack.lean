import Verif.Spec.Conntrack

set_option autoImplicit false

namespace Nfqlb.Ct

open Spec

/-! ### Buckets -/

/-- All slots of a bucket. -/
def slots (b : Bucket) : List Slot := b.main :: b.chain

/-- What is stored for `k`. -/
def view (b : Bucket) (k : Key) : Option Slot := (slots b).find? (hit k)

/-- What is stored for `k` and not stale. -/
def liveB (b : Bucket) (now : Nat) (k : Key) : Option Slot := (view b k).filter (fun s => !stale s now)

structure BInv (b : Bucket) : Prop where
  nodup : ((slots b).map Slot.key).Nodup
  data : ∀ s ∈ b.chain, s.data ≠ 0

theorem BInv.chain_nodup {b : Bucket} (h : BInv b) : (b.chain.map Slot.key).Nodup := by
  have := h.nodup; unfold slots at this; simp at this; exact this.2

theorem BInv.main_notin {b : Bucket} (h : BInv b) : ∀ s ∈ b.chain, s.key ≠ b.main.key := by
  have := h.nodup; unfold slots at this; simp at this
  intro s hs he; exact this.1 s hs he

theorem gcChain_fst (now : Nat) : ∀ c, (gcChain now c).1 = c.filter (fun s => !stale s now) := by
  intro c
  induction c with
  | nil => rfl
  | cons s r ih =>
    unfold gcChain
    by_cases hs : stale s now = true
    · simp [hs, ih]
    · have : stale s now = false := by simpa using hs
      simp [this, ih]

theorem gcMain_idem (now : Nat) (m : Slot) : gcMain now (gcMain now m).1 = ((gcMain now m).1, [], 0) := by
  unfold gcMain
  by_cases h : m.data ≠ 0 ∧ stale m now = true
  · simp [h]
  · simp only [h, if_false]

/-- `prepare` collects the bucket. -/
theorem prepare_eq (b : Bucket) (now : Nat) : prepare b now =
    ({ main := (gcMain now b.main).1, chain := (gcChain now b.chain).1 },
      (gcMain now b.main).2.1 ++ (gcChain now b.chain).2.1, (gcMain now b.main).2.2 + (gcChain now b.chain).2.2) := by
  unfold prepare
  simp only
  by_cases h : b.chain = []
  · simp [h, gcChain]
  · simp only [h, ne_eq, not_false_eq_true, if_true, bucketGC, gcMain_idem]
    simp

theorem bucketGC_eq (b : Bucket) (now : Nat) : bucketGC b now =
    ((prepare b now).1, (prepare b now).2.1, (prepare b now).2.2,
      (if (prepare b now).1.main.data ≠ 0 then 1 else 0) + (prepare b now).1.chain.length) := by
  rw [prepare_eq]; rfl

theorem gcMain_key (now : Nat) (m : Slot) : (gcMain now m).1.key = m.key := by
  unfold gcMain; split <;> rfl

theorem gcMain_cases (now : Nat) (m : Slot) :
    (m.data ≠ 0 ∧ stale m now = true ∧ (gcMain now m).1.data = 0) ∨
    (¬ (m.data ≠ 0 ∧ stale m now = true) ∧ (gcMain now m).1 = m) := by
  unfold gcMain
  by_cases h : m.data ≠ 0 ∧ stale m now = true
  · left; simp [h]
  · right; exact ⟨h, by simp only [h, if_false]⟩

theorem prepare_inv {b : Bucket} (h : BInv b) (now : Nat) : BInv (prepare b now).1 := by
  rw [prepare_eq, gcChain_fst]
  constructor
  · have hn := h.nodup
    unfold slots at hn ⊢
    simp only [List.map_cons, List.nodup_cons, gcMain_key] at hn ⊢
    refine ⟨?_, ?_⟩
    · intro hc
      apply hn.1
      simp only [List.mem_map, List.mem_filter] at hc ⊢
      obtain ⟨s, ⟨hs, _⟩, he⟩ := hc
      exact ⟨s, hs, he⟩
    · exact (List.filter_sublist.map Slot.key).nodup hn.2
  · intro s hs
    simp only [List.mem_filter] at hs
    exact h.data s hs.1

theorem find_filter {l : List Slot} (hn : (l.map Slot.key).Nodup) (q : Slot → Bool) (k : Key) :
    (l.filter q).find? (hit k) = (l.find? (hit k)).filter q := by
  induction l with
  | nil => rfl
  | cons s r ih =>
    simp only [List.map_cons, List.nodup_cons] at hn
    by_cases hs : hit k s = true
    · have hk : s.key = k := by unfold hit at hs; simp at hs; exact hs.2
      have hnone : r.find? (hit k) = none := by
        rw [List.find?_eq_none]
        intro x hx
        unfold hit
        simp only [decide_eq_true_eq, not_and]
        intro _ hxk
        apply hn.1
        rw [hk, ← hxk]
        exact List.mem_map_of_mem hx
      by_cases hq : q s = true
      · simp [Option.filter, hs, hq]
      · have hq' : q s = false := by simpa using hq
        rw [List.find?_cons_of_pos hs, List.filter_cons_of_neg (by simpa using hq), ih hn.2, hnone]
        simp [Option.filter, hq']
    · rw [List.find?_cons_of_neg hs]
      by_cases hq : q s = true
      · rw [List.filter_cons_of_pos hq, List.find?_cons_of_neg hs, ih hn.2]
      · rw [List.filter_cons_of_neg hq, ih hn.2]

/-- After collecting, what is stored is what was live. -/
theorem view_prepare {b : Bucket} (h : BInv b) (now : Nat) (k : Key) : view (prepare b now).1 k = liveB b now k := by
  rw [prepare_eq, gcChain_fst]
  unfold liveB view slots
  have hf := find_filter h.chain_nodup (fun s => !stale s now) k
  rcases gcMain_cases now b.main with ⟨h1, h2, h3⟩ | ⟨h1, h2⟩
  · have hn : ¬ hit k (gcMain now b.main).1 = true := by unfold hit; simp [h3]
    simp only
    rw [List.find?_cons_of_neg hn, hf]
    by_cases hm : hit k b.main = true
    · rw [List.find?_cons_of_pos hm]
      have hk : b.main.key = k := by unfold hit at hm; simp at hm; exact hm.2
      have hnone : b.chain.find? (hit k) = none := by
        rw [List.find?_eq_none]
        intro x hx
        unfold hit
        simp only [decide_eq_true_eq, not_and]
        intro _ hxk
        exact h.main_notin x hx (by rw [hxk, hk])
      rw [hnone]
      simp [Option.filter, h2]
    · rw [List.find?_cons_of_neg hm]
  · simp only [h2]
    by_cases hm : hit k b.main = true
    · rw [List.find?_cons_of_pos hm, List.find?_cons_of_pos hm]
      have hd : b.main.data ≠ 0 := by unfold hit at hm; simp at hm; exact hm.1
      have hs : stale b.main now = false := by
        cases hst : stale b.main now
        · rfl
        · exact absurd ⟨hd, hst⟩ h1
      simp [Option.filter, hs]
    · rw [List.find?_cons_of_neg hm, List.find?_cons_of_neg hm, hf]

/-- Nothing stale is left. -/
theorem prepare_fresh (b : Bucket) (now : Nat) :
    (∀ s ∈ (prepare b now).1.chain, stale s now = false) ∧
    ((prepare b now).1.main.data ≠ 0 → stale (prepare b now).1.main now = false) := by
  rw [prepare_eq, gcChain_fst]
  constructor
  · intro s hs; simp at hs; exact hs.2
  · intro hd
    rcases gcMain_cases now b.main with ⟨h1, h2, h3⟩ | ⟨h1, h2⟩
    · exact absurd h3 hd
    · simp only [h2] at hd ⊢
      cases hst : stale b.main now
      · rfl
      · exact absurd ⟨hd, hst⟩ h1

/-- The slots left by collecting were there before. -/
theorem prepare_sub (b : Bucket) (now : Nat) : ∀ s ∈ slots (prepare b now).1, s.data ≠ 0 → s ∈ slots b := by
  rw [prepare_eq, gcChain_fst]
  unfold slots
  intro s hs hd
  simp only [List.mem_cons, List.mem_filter] at hs ⊢
  rcases hs with rfl | ⟨hs, _⟩
  · rcases gcMain_cases now b.main with ⟨h1, h2, h3⟩ | ⟨h1, h2⟩
    · exact absurd h3 hd
    · left; exact h2
  · right; exact hs

/-! ### Touching an entry -/

theorem touchChain_none {now : Nat} {k : Key} : ∀ {c : List Slot}, touchChain now k c = none ↔ c.find? (hit k) = none := by
  intro c
  induction c with
  | nil => simp [touchChain]
  | cons s r ih =>
    unfold touchChain
    by_cases hs : hit k s = true
    · simp [hs]
    · rw [if_neg hs, List.find?_cons_of_neg hs, ← ih]
      cases touchChain now k r with
      | none => simp
      | some x => simp

theorem touchChain_some {now : Nat} {k : Key} : ∀ {c c' : List Slot} {v : Nat}, touchChain now k c = some (c', v) →
    ∃ s l r, c = l ++ s :: r ∧ c' = l ++ { s with refered := now } :: r ∧ hit k s = true ∧ s.data = v ∧ c.find? (hit k) = some s := by
  intro c
  induction c with
  | nil => intro c' v h; simp [touchChain] at h
  | cons s r ih =>
    intro c' v h
    unfold touchChain at h
    by_cases hs : hit k s = true
    · rw [if_pos hs] at h
      simp only [Option.some.injEq, Prod.mk.injEq] at h
      obtain ⟨rfl, rfl⟩ := h
      exact ⟨s, [], r, rfl, rfl, hs, rfl, List.find?_cons_of_pos hs⟩
    · rw [if_neg hs] at h
      cases ht : touchChain now k r with
      | none => rw [ht] at h; simp at h
      | some x =>
        obtain ⟨r', w⟩ := x
        rw [ht] at h
        simp only [Option.some.injEq, Prod.mk.injEq] at h
        obtain ⟨rfl, rfl⟩ := h
        obtain ⟨t, l, q, e1, e2, e3, e4, e5⟩ := ih ht
        refine ⟨t, s :: l, q, by rw [e1]; rfl, by rw [e2]; rfl, e3, e4, ?_⟩
        rw [List.find?_cons_of_neg hs, e5]

theorem touch_none {now : Nat} {k : Key} {b : Bucket} : touch now k b = none ↔ view b k = none := by
  unfold touch view slots
  by_cases hm : hit k b.main = true
  · simp [hm]
  · rw [if_neg hm, List.find?_cons_of_neg hm, ← touchChain_none (now := now)]
    cases touchChain now k b.chain with
    | none => simp
    | some x => simp

/-- The slot found is replaced by itself with a new time stamp. -/
theorem touch_some {now : Nat} {k : Key} {b b' : Bucket} {v : Nat} (h : touch now k b = some (b', v)) :
    ∃ s l r, slots b = l ++ s :: r ∧ slots b' = l ++ { s with refered := now } :: r ∧ hit k s = true ∧ s.data = v ∧ view b k = some s := by
  unfold touch at h
  by_cases hm : hit k b.main = true
  · rw [if_pos hm] at h
    simp only [Option.some.injEq, Prod.mk.injEq] at h
    obtain ⟨rfl, rfl⟩ := h
    exact ⟨b.main, [], b.chain, rfl, rfl, hm, rfl, List.find?_cons_of_pos hm⟩
  · rw [if_neg hm] at h
    cases ht : touchChain now k b.chain with
    | none => rw [ht] at h; simp at h
    | some x =>
      obtain ⟨r', w⟩ := x
      rw [ht] at h
      simp only [Option.some.injEq, Prod.mk.injEq] at h
      obtain ⟨rfl, rfl⟩ := h
      obtain ⟨s, l, r, e1, e2, e3, e4, e5⟩ := touchChain_some ht
      refine ⟨s, b.main :: l, r, by unfold slots; rw [e1]; rfl, by unfold slots; simp only [e2]; rfl, e3, e4, ?_⟩
      unfold view slots
      rw [List.find?_cons_of_neg hm, e5]

theorem find_replace {l r : List Slot} {s : Slot} {now : Nat} (hn : ((l ++ s :: r).map Slot.key).Nodup) (hd : s.data ≠ 0) (k' : Key) :
    (l ++ { s with refered := now } :: r).find? (hit k') =
      if k' = s.key then some { s with refered := now } else (l ++ s :: r).find? (hit k') := by
  by_cases hk : k' = s.key
  · rw [if_pos hk]
    rw [List.find?_append]
    have hnone : l.find? (hit k') = none := by
      rw [List.find?_eq_none]
      intro x hx
      unfold hit
      simp only [decide_eq_true_eq, not_and]
      intro _ hxk
      simp only [List.map_append, List.map_cons, List.nodup_append] at hn
      exact hn.2.2 _ (List.mem_map_of_mem hx) _ (List.mem_cons_self ..) (by rw [hxk, hk])
    rw [hnone]
    have : hit k' { s with refered := now } = true := by unfold hit; simp [hd, hk]
    rw [List.find?_cons_of_pos this]
    rfl
  · rw [if_neg hk, List.find?_append, List.find?_append]
    have h1 : ¬ hit k' s = true := by unfold hit; simp; intro _ h; exact hk h.symm
    have h2 : ¬ hit k' { s with refered := now } = true := by unfold hit; simp; intro _ h; exact hk h.symm
    rw [List.find?_cons_of_neg h1, List.find?_cons_of_neg h2]

theorem hit_iff {k : Key} {s : Slot} : hit k s = true ↔ s.data ≠ 0 ∧ s.key = k := by unfold hit; simp

theorem touch_spec {now : Nat} {k : Key} {b b' : Bucket} {v : Nat} (hb : BInv b) (h : touch now k b = some (b', v)) :
    ∃ s, view b k = some s ∧ s.data = v ∧ s.data ≠ 0 ∧ BInv b' ∧
      (∀ k', view b' k' = if k' = k then some { s with refered := now } else view b k') ∧
      (slots b').map Slot.data = (slots b).map Slot.data ∧
      (∀ x ∈ slots b', x ∈ slots b ∨ (x.refered = now ∧ x.key = k ∧ x = { s with refered := now })) ∧
      (slots b').map Slot.key = (slots b).map Slot.key := by
  obtain ⟨s, l, r, e1, e2, e3, e4, e5⟩ := touch_some h
  obtain ⟨hd, hk⟩ := hit_iff.1 e3
  have hn := hb.nodup
  rw [e1] at hn
  refine ⟨s, e5, e4, hd, ?_, ?_, ?_, ?_, ?_⟩
  · constructor
    · rw [e2]; simpa using hn
    · have hmap : (slots b').map Slot.data = (slots b).map Slot.data := by rw [e1, e2]; simp
      unfold slots at hmap
      simp only [List.map_cons, List.cons.injEq] at hmap
      intro x hx
      have : x.data ∈ b'.chain.map Slot.data := List.mem_map_of_mem hx
      rw [hmap.2] at this
      obtain ⟨y, hy, he⟩ := List.mem_map.1 this
      rw [← he]
      exact hb.data y hy
  · intro k'
    unfold view
    rw [e2, find_replace hn hd, e1, hk]
  · rw [e1, e2]; simp
  · intro x hx
    rw [e2] at hx
    rw [e1]
    simp only [List.mem_append, List.mem_cons] at hx ⊢
    rcases hx with h | h | h
    · left; left; exact h
    · right; rw [h]; exact ⟨rfl, hk, rfl⟩
    · left; right; right; exact h
  · rw [e1, e2]; simp

theorem view_none_key {b : Bucket} (hb : BInv b) {k : Key} (h : view b k = none) :
    (∀ s ∈ b.chain, s.key ≠ k) ∧ (b.main.data ≠ 0 → b.main.key ≠ k) := by
  unfold view slots at h
  rw [List.find?_eq_none] at h
  constructor
  · intro s hs he
    exact h s (List.mem_cons_of_mem _ hs) (hit_iff.2 ⟨hb.data s hs, he⟩)
  · intro hd he
    exact h b.main List.mem_cons_self (hit_iff.2 ⟨hd, he⟩)

/-- Storing in a free main bucket. -/
theorem put_main {b : Bucket} (hb : BInv b) {new : Slot} (hd : new.data ≠ 0) (hv : view b new.key = none) (hm : b.main.data = 0) :
    BInv { b with main := new } ∧
    ∀ k', view { b with main := new } k' = if k' = new.key then some new else view b k' := by
  obtain ⟨h1, _⟩ := view_none_key hb hv
  constructor
  · constructor
    · unfold slots
      simp only [List.map_cons, List.nodup_cons]
      refine ⟨?_, hb.chain_nodup⟩
      intro hc
      obtain ⟨s, hs, he⟩ := List.mem_map.1 hc
      exact h1 s hs he
    · exact hb.data
  · intro k'
    unfold view slots
    have hnm : ∀ k, ¬ hit k b.main = true := by intro k; rw [hit_iff]; rintro ⟨h, _⟩; exact h hm
    simp only
    rw [List.find?_cons_of_neg (hnm k')]
    by_cases hk : k' = new.key
    · rw [if_pos hk, List.find?_cons_of_pos (hit_iff.2 ⟨hd, hk.symm⟩)]
    · rw [if_neg hk, List.find?_cons_of_neg (by rw [hit_iff]; rintro ⟨_, h⟩; exact hk h.symm)]

/-- Storing in a new extra bucket. -/
theorem put_chain {b : Bucket} (hb : BInv b) {new : Slot} (hd : new.data ≠ 0) (hv : view b new.key = none) (hm : b.main.data ≠ 0) :
    BInv { b with chain := new :: b.chain } ∧
    ∀ k', view { b with chain := new :: b.chain } k' = if k' = new.key then some new else view b k' := by
  obtain ⟨h1, h2⟩ := view_none_key hb hv
  constructor
  · constructor
    · have hn := hb.nodup
      unfold slots at hn ⊢
      simp only [List.map_cons, List.nodup_cons, List.mem_cons, not_or] at hn ⊢
      refine ⟨⟨h2 hm, hn.1⟩, ?_, hn.2⟩
      intro hc
      obtain ⟨s, hs, he⟩ := List.mem_map.1 hc
      exact h1 s hs he
    · intro s hs
      simp only [List.mem_cons] at hs
      rcases hs with rfl | hs
      · exact hd
      · exact hb.data s hs
  · intro k'
    unfold view slots
    simp only
    by_cases hmk : hit k' b.main = true
    · rw [List.find?_cons_of_pos hmk, List.find?_cons_of_pos hmk]
      have : b.main.key = k' := (hit_iff.1 hmk).2
      rw [if_neg (by rintro rfl; exact h2 hm this)]
    · rw [List.find?_cons_of_neg hmk, List.find?_cons_of_neg hmk]
      by_cases hk : k' = new.key
      · rw [if_pos hk, List.find?_cons_of_pos (hit_iff.2 ⟨hd, hk.symm⟩)]
      · rw [if_neg hk, List.find?_cons_of_neg (by rw [hit_iff]; rintro ⟨_, h⟩; exact hk h.symm)]

/-- Removing from the main bucket. -/
theorem clear_main {b : Bucket} (hb : BInv b) :
    BInv { b with main := { b.main with data := 0 } } ∧
    ∀ k', view { b with main := { b.main with data := 0 } } k' = if k' = b.main.key then none else view b k' := by
  constructor
  · exact ⟨hb.nodup, hb.data⟩
  · intro k'
    unfold view slots
    simp only
    rw [List.find?_cons_of_neg (by rw [hit_iff]; simp)]
    by_cases hk : k' = b.main.key
    · rw [if_pos hk, List.find?_eq_none]
      intro x hx hh
      exact hb.main_notin x hx (by rw [(hit_iff.1 hh).2, hk])
    · rw [if_neg hk, List.find?_cons_of_neg (by rw [hit_iff]; rintro ⟨_, h⟩; exact hk h.symm)]

theorem removeChain_spec (k : Key) : ∀ (c : List Slot), (c.map Slot.key).Nodup →
    (removeChain k c).1 = c.filter (fun s => decide (s.key ≠ k)) := by
  intro c
  induction c with
  | nil => intro _; rfl
  | cons s r ih =>
    intro hn
    simp only [List.map_cons, List.nodup_cons] at hn
    unfold removeChain
    by_cases hs : s.key = k
    · simp only [hs, if_true, ne_eq, not_true_eq_false, decide_false, Bool.false_eq_true, not_false_eq_true,
        List.filter_cons_of_neg]
      symm
      rw [List.filter_eq_self]
      intro x hx
      simp only [decide_not, Bool.not_eq_eq_eq_not, Bool.not_true, decide_eq_false_iff_not]
      intro hxk
      apply hn.1
      rw [hs, ← hxk]
      exact List.mem_map_of_mem hx
    · rw [if_neg hs]
      simp only [ih hn.2]
      rw [List.filter_cons_of_pos (by simpa using hs)]

theorem find_filter_key {l : List Slot} (k k' : Key) :
    (l.filter (fun s => decide (s.key ≠ k))).find? (hit k') = if k' = k then none else l.find? (hit k') := by
  induction l with
  | nil => simp
  | cons s r ih =>
    by_cases hs : s.key = k
    · rw [List.filter_cons_of_neg (by simp [hs]), ih]
      by_cases hk : k' = k
      · simp [hk]
      · rw [if_neg hk, if_neg hk, List.find?_cons_of_neg (by rw [hit_iff]; rintro ⟨_, h⟩; exact hk (by rw [← h, hs]))]
    · rw [List.filter_cons_of_pos (by simpa using hs)]
      by_cases hh : hit k' s = true
      · have := (hit_iff.1 hh).2
        rw [List.find?_cons_of_pos hh, List.find?_cons_of_pos hh, if_neg (by rintro rfl; exact hs this)]
      · rw [List.find?_cons_of_neg hh, List.find?_cons_of_neg hh, ih]

theorem remove_chain {b : Bucket} (hb : BInv b) {k : Key} (hk : b.main.key ≠ k) :
    BInv { b with chain := (removeChain k b.chain).1 } ∧
    ∀ k', view { b with chain := (removeChain k b.chain).1 } k' = if k' = k then none else view b k' := by
  rw [removeChain_spec k b.chain hb.chain_nodup]
  constructor
  · constructor
    · have hn := hb.nodup
      unfold slots at hn ⊢
      simp only [List.map_cons, List.nodup_cons] at hn ⊢
      refine ⟨?_, (List.filter_sublist.map Slot.key).nodup hn.2⟩
      intro hc
      apply hn.1
      obtain ⟨s, hs, he⟩ := List.mem_map.1 hc
      exact List.mem_map.2 ⟨s, (List.mem_filter.1 hs).1, he⟩
    · intro s hs
      exact hb.data s (List.mem_filter.1 hs).1
  · intro k'
    unfold view slots
    simp only
    by_cases hmk : hit k' b.main = true
    · have := (hit_iff.1 hmk).2
      rw [List.find?_cons_of_pos hmk, List.find?_cons_of_pos hmk, if_neg (by rintro rfl; exact hk this)]
    · rw [List.find?_cons_of_neg hmk, List.find?_cons_of_neg hmk, find_filter_key]

end Nfqlb.Ct
