import Verif.Model.Maglev
import Verif.Spec.Maglev

set_option autoImplicit false

namespace Nfqlb.Maglev

open Spec

/-! ### `findFree` -/

theorem findFree_ok (lookup : List Int) (rest : List Nat) :
    ∀ next, (∀ c ∈ rest, c < lookup.length) →
      (∃ c ∈ rest, ∃ v, lookup[c]? = some v ∧ v < 0) →
      ∃ k c, findFree lookup rest next = .ok (next + k, c) ∧ rest[k]? = some c ∧
        (∃ v, lookup[c]? = some v ∧ v < 0) ∧
        ∀ j, j < k → ∃ c' v, rest[j]? = some c' ∧ lookup[c']? = some v ∧ 0 ≤ v := by
  induction rest with
  | nil => intro next _ h; simp at h
  | cons a rest ih =>
    intro next hlt hex
    have ha : a < lookup.length := hlt a (by simp)
    have hget : lookup[a]? = some lookup[a] := List.getElem?_eq_getElem ha
    unfold findFree
    rw [hget]
    by_cases hv : lookup[a] ≥ 0
    · simp only [hv, if_true]
      have hex' : ∃ c ∈ rest, ∃ v, lookup[c]? = some v ∧ v < 0 := by
        obtain ⟨c, hc, v, hcv, hneg⟩ := hex
        rcases List.mem_cons.1 hc with h | h
        · subst h; rw [hget] at hcv; injection hcv with hcv; omega
        · exact ⟨c, h, v, hcv, hneg⟩
      obtain ⟨k, c, h1, h2, h3, h4⟩ := ih (next + 1) (fun c hc => hlt c (by simp [hc])) hex'
      refine ⟨k + 1, c, ?_, by simpa using h2, h3, ?_⟩
      · rw [h1]; congr 2; omega
      · intro j hj
        cases j with
        | zero => exact ⟨a, lookup[a], by simp, hget, hv⟩
        | succ j => simpa using h4 j (by omega)
    · simp only [hv, if_false]
      exact ⟨0, a, rfl, by simp, ⟨_, hget, by omega⟩, by intro j hj; omega⟩

/-- Whatever `findFree` returns is a free slot taken from the row. -/
theorem findFree_spec (lookup : List Int) (rest : List Nat) :
    ∀ next nx c, findFree lookup rest next = .ok (nx, c) →
      c ∈ rest ∧ ∃ v, lookup[c]? = some v ∧ v < 0 := by
  induction rest with
  | nil => intro next nx c h; simp [findFree] at h
  | cons a rest ih =>
    intro next nx c h
    unfold findFree at h
    split at h
    · simp at h
    · rename_i v hv
      split at h
      · have := ih _ _ _ h
        exact ⟨by simp [this.1], this.2⟩
      · injection h with h; injection h with h1 h2
        subst h2
        exact ⟨by simp, v, hv, by omega⟩

/-! ### Loop invariant of `populate` -/

/-- Number of assigned slots. -/
def filled (l : List Int) : Nat := l.countP (fun v => decide (0 ≤ v))

/-- Dimensions and permutation rows as set up by `magDataDyn_init` when no wrap-around occurs. -/
structure WfPerm (M N : Nat) (perm : List (List Nat)) (active : List Int) : Prop where
  rows : ∀ i, i < N → ∃ row, perm[i]? = some row ∧ IsPermutationRow M row
  len : active.length = N

/-- Invariant at position `i` of turn `r` of the outer loop. -/
structure PInv (M N : Nat) (perm : List (List Nat)) (active : List Int) (r i : Nat) (s : PopSt) :
    Prop where
  lookupLen : s.lookup.length = M
  nextLen : s.next.length = N
  count : filled s.lookup = s.n
  lt : s.n < M
  consumed : ∀ (k : Nat) (row : List Nat) (nx : Nat), perm[k]? = some row → s.next[k]? = some nx →
    ∀ j, j < nx → ∃ (c : Nat) (v : Int), row[j]? = some c ∧ s.lookup[c]? = some v ∧ 0 ≤ v
  valid : ∀ v ∈ s.lookup, v = -1 ∨ ∃ k : Nat, v = (k : Int) ∧ ActiveAt active k
  even : ∀ k, ActiveAt active k → slots s.lookup k = if k < i then r + 1 else r

/-- The facts that remain when the last slot has been assigned. -/
structure PDone (M : Nat) (active : List Int) (r i : Nat) (s : PopSt) : Prop where
  lookupLen : s.lookup.length = M
  count : filled s.lookup = M
  valid : ∀ v ∈ s.lookup, v = -1 ∨ ∃ k : Nat, v = (k : Int) ∧ ActiveAt active k
  even : ∀ k, ActiveAt active k → slots s.lookup k = if k < i then r + 1 else r

theorem slots_set (l : List Int) (c : Nat) (v : Int) (i k : Nat) (h : l[c]? = some v) (hv : v < 0) :
    slots (l.set c (i : Int)) k = slots l k + (if i = k then 1 else 0) := by
  have hc : c < l.length := by
    rcases Nat.lt_or_ge c l.length with h' | h'
    · exact h'
    · rw [List.getElem?_eq_none h'] at h; simp at h
  have hgv : l[c] = v := by rw [List.getElem?_eq_getElem hc] at h; injection h
  have hne : (v == (k : Int)) = false := by simp; omega
  unfold slots
  rw [List.count_set hc, hgv]
  by_cases hik : i = k
  · subst hik; simp [hne]
  · have : ¬ ((i : Int) = (k : Int)) := by omega
    simp [hne, this, hik]

theorem filled_set (l : List Int) (c : Nat) (v : Int) (i : Nat) (h : l[c]? = some v) (hv : v < 0) :
    filled (l.set c (i : Int)) = filled l + 1 := by
  have hc : c < l.length := by
    rcases Nat.lt_or_ge c l.length with h' | h'
    · exact h'
    · rw [List.getElem?_eq_none h'] at h; simp at h
  have hgv : l[c] = v := by rw [List.getElem?_eq_getElem hc] at h; injection h
  unfold filled
  rw [List.countP_set hc, hgv]
  have : ¬ (0 ≤ v) := by omega
  simp [this]

theorem exists_free (l : List Int) (h : filled l < l.length) :
    ∃ (c : Nat) (v : Int), l[c]? = some v ∧ v < 0 := by
  unfold filled at h
  by_cases hall : ∀ a ∈ l, decide (0 ≤ a) = true
  · rw [List.countP_eq_length.2 hall] at h; omega
  · have : ∃ a, a ∈ l ∧ ¬ (0 ≤ a) := by
      by_cases hh : ∃ a, a ∈ l ∧ ¬ (0 ≤ a)
      · exact hh
      · exfalso; apply hall; intro a ha
        by_cases h0 : 0 ≤ a
        · simp [h0]
        · exact absurd ⟨a, ha, h0⟩ hh
    obtain ⟨a, ha, hneg⟩ := this
    obtain ⟨c, hc⟩ := List.getElem?_of_mem ha
    exact ⟨c, a, hc, by omega⟩

theorem place_inv {M N : Nat} {perm : List (List Nat)} {active : List Int} (hw : WfPerm M N perm active)
    {r i : Nat} {s : PopSt} (hs : PInv M N perm active r i s) (hi : i < N) (ha : ActiveAt active i) :
    (∃ s', place perm i s = .ok s' ∧ s'.n = s.n + 1 ∧ PDone M active r (i + 1) s') ∨
    (∃ s', place perm i s = .ok s' ∧ s'.n = s.n + 1 ∧ s'.n < M ∧ PInv M N perm active r (i + 1) s') := by
  obtain ⟨row, hrow, hperm⟩ := hw.rows i hi
  have hil : i < s.next.length := by rw [hs.nextLen]; exact hi
  have hnx : s.next[i]? = some s.next[i]  := List.getElem?_eq_getElem hil
  generalize hnxv : s.next[i] = nx at hnx
  have hmemrow : ∀ c, c ∈ row ↔ c < M := by
    intro c; rw [hperm.mem_iff]; exact List.mem_range
  -- a free slot exists and is in the rest of the row
  obtain ⟨c0, v0, hc0, hv0⟩ := exists_free s.lookup (by rw [hs.count, hs.lookupLen]; exact hs.lt)
  have hc0M : c0 < M := by
    rcases Nat.lt_or_ge c0 s.lookup.length with h' | h'
    · rw [hs.lookupLen] at h'; exact h'
    · rw [List.getElem?_eq_none h'] at hc0; simp at hc0
  obtain ⟨j0, hj0⟩ := List.getElem?_of_mem ((hmemrow c0).2 hc0M)
  have hj0nx : nx ≤ j0 := by
    rcases Nat.lt_or_ge j0 nx with h | h
    · obtain ⟨c, v, h1, h2, h3⟩ := hs.consumed i row nx hrow hnx j0 h
      rw [h1] at hj0; injection hj0 with hj0; subst hj0
      rw [h2] at hc0; injection hc0 with hc0; omega
    · exact h
  have hmemdrop : c0 ∈ row.drop nx := by
    apply List.mem_of_getElem? (i := j0 - nx)
    rw [List.getElem?_drop]
    rw [show nx + (j0 - nx) = j0 by omega]; exact hj0
  obtain ⟨k, c, h1, h2, ⟨v, hv, hvneg⟩, h4⟩ := findFree_ok s.lookup (row.drop nx) nx
    (by intro c hc; rw [hs.lookupLen]; exact (hmemrow c).1 (List.mem_of_mem_drop hc))
    ⟨c0, hmemdrop, v0, hc0, hv0⟩
  have hplace : place perm i s = .ok
      { lookup := s.lookup.set c (i : Int), next := s.next.set i (nx + k + 1), n := s.n + 1 } := by
    unfold place; rw [hrow, hnx]; simp only [h1]
  have hcM : c < s.lookup.length := by
    rcases Nat.lt_or_ge c s.lookup.length with h' | h'
    · exact h'
    · rw [List.getElem?_eq_none h'] at hv; simp at hv
  have hlen : (s.lookup.set c (i : Int)).length = M := by simp [hs.lookupLen]
  have hcount : filled (s.lookup.set c (i : Int)) = s.n + 1 := by
    rw [filled_set _ _ _ _ hv hvneg, hs.count]
  have hvalid : ∀ v ∈ s.lookup.set c (i : Int), v = -1 ∨ ∃ k : Nat, v = (k : Int) ∧ ActiveAt active k := by
    intro w hw'
    rcases List.mem_or_eq_of_mem_set hw' with h | h
    · exact hs.valid w h
    · exact Or.inr ⟨i, h, ha⟩
  have heven : ∀ k, ActiveAt active k →
      slots (s.lookup.set c (i : Int)) k = if k < i + 1 then r + 1 else r := by
    intro k hk
    rw [slots_set _ _ _ _ _ hv hvneg, hs.even k hk]
    by_cases h : i = k
    · subst h; simp
    · by_cases h' : k < i
      · simp [h, h', show k < i + 1 by omega]
      · simp [h, h', show ¬ k < i + 1 by omega]
  by_cases hfin : s.n + 1 = M
  · left
    exact ⟨_, hplace, rfl, ⟨hlen, by rw [hcount, hfin], hvalid, heven⟩⟩
  · right
    have hlt := hs.lt
    refine ⟨_, hplace, rfl, by show s.n + 1 < M; omega, ⟨hlen, by simp [hs.nextLen], hcount, by show s.n + 1 < M; omega, ?_, hvalid, heven⟩⟩
    -- consumed
    have hpers : ∀ (c' : Nat) (v' : Int), s.lookup[c']? = some v' → 0 ≤ v' →
        ∃ v'' : Int, (s.lookup.set c (i : Int))[c']? = some v'' ∧ 0 ≤ v'' := by
      intro c' v' hc' hv'
      by_cases h : c = c'
      · subst h; rw [hv] at hc'; injection hc' with hc'; omega
      · exact ⟨v', by rw [List.getElem?_set_ne h]; exact hc', hv'⟩
    intro k' row' nx' hrow' hnx' j hj
    by_cases hki : i = k'
    · subst hki
      rw [hrow] at hrow'; injection hrow' with hrow'; subst hrow'
      simp only [List.getElem?_set_self hil] at hnx'
      injection hnx' with hnx'
      subst hnx'
      rcases Nat.lt_or_ge j nx with h | h
      · obtain ⟨c', v', a1, a2, a3⟩ := hs.consumed i row nx hrow hnx j h
        obtain ⟨v'', b1, b2⟩ := hpers c' v' a2 a3
        exact ⟨c', v'', a1, b1, b2⟩
      · rcases Nat.lt_or_ge (j - nx) k with hjk | hjk
        · obtain ⟨c', v', a1, a2, a3⟩ := h4 (j - nx) hjk
          rw [List.getElem?_drop, show nx + (j - nx) = j by omega] at a1
          obtain ⟨v'', b1, b2⟩ := hpers c' v' a2 a3
          exact ⟨c', v'', a1, b1, b2⟩
        · have hjeq : j = nx + k := by omega
          subst hjeq
          rw [List.getElem?_drop] at h2
          exact ⟨c, i, h2, by rw [List.getElem?_set_self hcM], by omega⟩
    · simp only [List.getElem?_set_ne hki] at hnx'
      obtain ⟨c', v', a1, a2, a3⟩ := hs.consumed k' row' nx' hrow' hnx' j hj
      obtain ⟨v'', b1, b2⟩ := hpers c' v' a2 a3
      exact ⟨c', v'', a1, b1, b2⟩

theorem PInv.skip {M N : Nat} {perm : List (List Nat)} {active : List Int} {r i : Nat} {s : PopSt}
    (hs : PInv M N perm active r i s) (hna : ¬ ActiveAt active i) : PInv M N perm active r (i + 1) s := by
  refine { hs with even := ?_ }
  intro k hk
  rw [hs.even k hk]
  have : k ≠ i := by rintro rfl; exact hna hk
  by_cases h : k < i
  · simp [h, show k < i + 1 by omega]
  · simp [h, show ¬ k < i + 1 by omega]

/-- A turn of the outer loop from position `i` on. -/
theorem pass_inv {M N : Nat} {perm : List (List Nat)} {active : List Int} (hw : WfPerm M N perm active)
    (m : Nat) :
    ∀ r i s, i + m = N → PInv M N perm active r i s →
      (∃ s' i', pass M perm active (List.range' i m) s = .ok (s', true) ∧ PDone M active r i' s') ∨
      (∃ s', pass M perm active (List.range' i m) s = .ok (s', false) ∧ PInv M N perm active r N s' ∧
        s.n ≤ s'.n ∧ ((∃ k, i ≤ k ∧ k < N ∧ ActiveAt active k) → s.n < s'.n)) := by
  induction m with
  | zero =>
    intro r i s hi hs
    right
    have hNi : N = i := by omega
    subst hNi
    refine ⟨s, by simp [pass], hs, Nat.le_refl _, ?_⟩
    rintro ⟨k, h1, h2, _⟩; omega
  | succ m ih =>
    intro r i s hi hs
    rw [List.range'_succ]
    have hil : i < active.length := by rw [hw.len]; omega
    unfold pass
    rw [List.getElem?_eq_getElem hil]
    simp only []
    by_cases hneg : active[i] < 0
    · rw [if_pos hneg]
      have hna : ¬ ActiveAt active i := by
        rintro ⟨fw, h, h0⟩
        rw [List.getElem?_eq_getElem hil] at h; injection h with h; omega
      rcases ih r (i + 1) s (by omega) (hs.skip hna) with ⟨s', i', h1, h2⟩ | ⟨s', h1, h2, h3, h4⟩
      · exact Or.inl ⟨s', i', h1, h2⟩
      · refine Or.inr ⟨s', h1, h2, h3, ?_⟩
        rintro ⟨k, hk1, hk2, hk3⟩
        apply h4
        refine ⟨k, ?_, hk2, hk3⟩
        have : k ≠ i := by rintro rfl; exact hna hk3
        omega
    · rw [if_neg hneg]
      have hact : ActiveAt active i := ⟨active[i], List.getElem?_eq_getElem hil, by omega⟩
      rcases place_inv hw hs (by omega) hact with ⟨s', hp, hn, hd⟩ | ⟨s', hp, hn, hlt, hinv⟩
      · left
        rw [hp]
        have hsM : s'.n = M := by
          -- all slots are assigned, so the counter equals M
          have h1 := hd.count
          obtain ⟨row, hrow, hperm⟩ := hw.rows i (by omega)
          -- `filled` grew by exactly one
          have : filled s'.lookup = s.n + 1 := by
            unfold place at hp
            split at hp
            · rename_i row' nx' hr' hnx'
              split at hp
              · rename_i nx'' c hff
                injection hp with hp
                subst hp
                obtain ⟨_, v, hv, hvneg⟩ := findFree_spec _ _ _ _ _ hff
                show filled (s.lookup.set c (i : Int)) = s.n + 1
                rw [filled_set _ _ _ _ hv hvneg, hs.count]
              all_goals simp at hp
            · simp at hp
          rw [hn]; have h1' : filled s'.lookup = M := h1; omega
        simp only [hsM, if_true]
        exact ⟨s', i + 1, rfl, ⟨hd.lookupLen, hd.count, hd.valid, hd.even⟩⟩
      · rw [hp]
        have : ¬ s'.n = M := by omega
        simp only [this, if_false]
        rcases ih r (i + 1) s' (by omega) hinv with ⟨s'', i', h1, h2⟩ | ⟨s'', h1, h2, h3, h4⟩
        · exact Or.inl ⟨s'', i', h1, h2⟩
        · refine Or.inr ⟨s'', h1, h2, by omega, fun _ => by omega⟩

theorem PInv.nextTurn {M N : Nat} {perm : List (List Nat)} {active : List Int} (hw : WfPerm M N perm active)
    {r : Nat} {s : PopSt} (hs : PInv M N perm active r N s) : PInv M N perm active (r + 1) 0 s := by
  refine { hs with even := ?_ }
  intro k hk
  rw [hs.even k hk]
  have : k < N := by
    obtain ⟨fw, h, _⟩ := hk
    rw [← hw.len]
    rcases Nat.lt_or_ge k active.length with h' | h'
    · exact h'
    · rw [List.getElem?_eq_none h'] at h; simp at h
  simp [this]

theorem passes_inv {M N : Nat} {perm : List (List Nat)} {active : List Int} (hw : WfPerm M N perm active)
    (hact : ∃ k, ActiveAt active k) (fuel : Nat) :
    ∀ r s, M ≤ s.n + fuel → PInv M N perm active r 0 s →
      ∃ s' r' i', passes M N perm active fuel s = .ok s'.lookup ∧ PDone M active r' i' s' := by
  induction fuel with
  | zero => intro r s hf hs; have := hs.lt; omega
  | succ fuel ih =>
    intro r s hf hs
    unfold passes
    have hrange : List.range N = List.range' 0 N := List.range_eq_range'
    rcases pass_inv hw N r 0 s (by omega) hs with ⟨s', i', h1, h2⟩ | ⟨s', h1, h2, h3, h4⟩
    · rw [hrange, h1]
      exact ⟨s', r, i', rfl, h2⟩
    · rw [hrange, h1]
      have hlt : s.n < s'.n := by
        obtain ⟨k, hk⟩ := hact
        refine h4 ⟨k, by omega, ?_, hk⟩
        obtain ⟨fw, h, _⟩ := hk
        rw [← hw.len]
        rcases Nat.lt_or_ge k active.length with h' | h'
        · exact h'
        · rw [List.getElem?_eq_none h'] at h; simp at h
      exact ih (r + 1) s' (by omega) (h2.nextTurn hw)

theorem nActive_pos_iff (active : List Int) : nActive active ≠ 0 ↔ ∃ k, ActiveAt active k := by
  unfold nActive
  constructor
  · intro h
    have : (active.filter (fun a => decide (a ≥ 0))) ≠ [] := by
      intro h'; rw [h'] at h; simp at h
    obtain ⟨a, ha⟩ := List.exists_mem_of_ne_nil _ this
    rw [List.mem_filter] at ha
    obtain ⟨k, hk⟩ := List.getElem?_of_mem ha.1
    exact ⟨k, a, hk, by simpa using ha.2⟩
  · rintro ⟨k, fw, h, h0⟩
    have hm := List.mem_of_getElem? h
    have : fw ∈ active.filter (fun a => decide (a ≥ 0)) := by
      rw [List.mem_filter]; exact ⟨hm, by simpa using h0⟩
    intro h'
    rw [List.length_eq_zero_iff.1 h'] at this
    simp at this

theorem populateLookup_ok {M N : Nat} {perm : List (List Nat)} {active : List Int}
    (hM : 0 < M) (hw : WfPerm M N perm active) :
    ∃ l, populateLookup M N perm active = .ok l ∧ GoodTable M l active ∧ Balanced l active := by
  unfold populateLookup
  by_cases hz : nActive active = 0
  · refine ⟨List.replicate M (-1), by simp [hz], ⟨?_, ?_⟩, ?_⟩
    · intro h; exact absurd hz ((nActive_pos_iff active).2 h)
    · intro _
      refine ⟨by simp, ?_⟩
      intro c hc
      rw [List.getElem?_replicate]; simp [hc]
    · intro i j hi _
      exact absurd hz ((nActive_pos_iff active).2 ⟨i, hi⟩)
  · have hact := (nActive_pos_iff active).1 hz
    have hinv : PInv M N perm active 0 0
        { lookup := List.replicate M (-1), next := List.replicate N 0, n := 0 } := by
      refine ⟨by simp, by simp, ?_, hM, ?_, ?_, ?_⟩
      · simp only [filled, List.countP_replicate]; simp
      · intro k row nx hrow hnx j hj
        rw [List.getElem?_replicate] at hnx
        split at hnx
        · injection hnx with hnx; omega
        · simp at hnx
      · intro v hv; left; exact List.eq_of_mem_replicate hv
      · intro k hk
        simp only [slots, List.count_replicate]
        simp
    obtain ⟨s', r', i', h1, h2⟩ := passes_inv hw hact M 0 _ (by simp) hinv
    refine ⟨s'.lookup, by simp only [hz, if_false]; exact h1, ⟨?_, ?_⟩, ?_⟩
    · intro _
      refine ⟨h2.lookupLen, ?_⟩
      intro c hc
      have hcl : c < s'.lookup.length := by rw [h2.lookupLen]; exact hc
      have hm : s'.lookup[c] ∈ s'.lookup := List.getElem_mem hcl
      have hall : ∀ a ∈ s'.lookup, decide (0 ≤ a) = true := by
        apply List.countP_eq_length.1
        have := h2.count
        unfold filled at this
        rw [this, h2.lookupLen]
      have hnn : 0 ≤ s'.lookup[c] := by simpa using hall _ hm
      rcases h2.valid _ hm with h | ⟨k, hk, hka⟩
      · omega
      · exact ⟨k, by rw [List.getElem?_eq_getElem hcl, hk], hka⟩
    · intro h; exact absurd hact h
    · intro i j hi hj
      rw [h2.even i hi, h2.even j hj]
      split <;> split <;> omega

end Nfqlb.Maglev
