import Verif.Proof.Maglev

/-! Facts about `populate` that hold for arbitrary permutation rows, whenever it returns. -/

set_option autoImplicit false

namespace Nfqlb.Maglev

open Spec

/-- Invariant at position `i` of turn `r` of the outer loop, without assumptions on the rows. -/
structure QInv (M N : Nat) (perm : List (List Nat)) (active : List Int) (r i : Nat) (s : PopSt) :
    Prop where
  lookupLen : s.lookup.length = M
  count : filled s.lookup = s.n
  valid : ∀ v ∈ s.lookup, v = -1 ∨ ∃ k : Nat, v = (k : Int) ∧ ActiveAt active k
  even : ∀ k, ActiveAt active k → slots s.lookup k = if k < i then r + 1 else r
  fromRow : ∀ (c : Nat) (v : Int), s.lookup[c]? = some v → 0 ≤ v →
    ∃ (k : Nat) (row : List Nat), perm[k]? = some row ∧ c ∈ row

theorem place_q {M N : Nat} {perm : List (List Nat)} {active : List Int}
    {r i : Nat} {s s' : PopSt} (hs : QInv M N perm active r i s) (ha : ActiveAt active i)
    (hp : place perm i s = .ok s') : s'.n = s.n + 1 ∧ QInv M N perm active r (i + 1) s' := by
  unfold place at hp
  split at hp
  · rename_i row nx hrow hnx
    split at hp
    · rename_i nx' c hff
      injection hp with hp
      subst hp
      obtain ⟨hmem, v, hv, hvneg⟩ := findFree_spec _ _ _ _ _ hff
      have hcM : c < s.lookup.length := by
        rcases Nat.lt_or_ge c s.lookup.length with h' | h'
        · exact h'
        · rw [List.getElem?_eq_none h'] at hv; simp at hv
      refine ⟨rfl, ⟨by simp [hs.lookupLen], ?_, ?_, ?_, ?_⟩⟩
      · show filled (s.lookup.set c (i : Int)) = s.n + 1
        rw [filled_set _ _ _ _ hv hvneg, hs.count]
      · intro w hw'
        rcases List.mem_or_eq_of_mem_set hw' with h | h
        · exact hs.valid w h
        · exact Or.inr ⟨i, h, ha⟩
      · intro k hk
        show slots (s.lookup.set c (i : Int)) k = _
        rw [slots_set _ _ _ _ _ hv hvneg, hs.even k hk]
        by_cases h : i = k
        · subst h; simp
        · by_cases h' : k < i
          · simp [h, h', show k < i + 1 by omega]
          · simp [h, h', show ¬ k < i + 1 by omega]
      · intro c' v' hc' hv'
        by_cases h : c = c'
        · subst h; exact ⟨i, row, hrow, List.mem_of_mem_drop hmem⟩
        · have : s.lookup[c']? = some v' := by
            rw [← List.getElem?_set_ne h (a := (i : Int))]; exact hc'
          exact hs.fromRow c' v' this hv'
    all_goals simp at hp
  · simp at hp

theorem QInv.skip {M N : Nat} {perm : List (List Nat)} {active : List Int} {r i : Nat} {s : PopSt}
    (hs : QInv M N perm active r i s) (hna : ¬ ActiveAt active i) : QInv M N perm active r (i + 1) s := by
  refine { hs with even := ?_ }
  intro k hk
  rw [hs.even k hk]
  have : k ≠ i := by rintro rfl; exact hna hk
  by_cases h : k < i
  · simp [h, show k < i + 1 by omega]
  · simp [h, show ¬ k < i + 1 by omega]

theorem place_res (perm : List (List Nat)) (i : Nat) (s : PopSt) :
    (∃ s', place perm i s = .ok s') ∨ place perm i s = .ub := by
  have hff : ∀ l rest nx, (∃ x, findFree l rest nx = .ok x) ∨ findFree l rest nx = .ub := by
    intro l rest
    induction rest with
    | nil => intro nx; right; rfl
    | cons a rest ih =>
      intro nx
      unfold findFree
      split
      · right; rfl
      · split
        · exact ih _
        · left; exact ⟨_, rfl⟩
  unfold place
  split
  · rename_i row nx _ _
    rcases hff s.lookup (row.drop nx) nx with ⟨x, hx⟩ | hx
    · left; rw [hx]; exact ⟨_, rfl⟩
    · right; rw [hx]
  · right; rfl

theorem pass_q {M N : Nat} {perm : List (List Nat)} {active : List Int} (hlen : active.length = N) (m : Nat) :
    ∀ r i s, i + m = N → s.n < M → QInv M N perm active r i s →
      pass M perm active (List.range' i m) s = .ub ∨
      (∃ s' i', pass M perm active (List.range' i m) s = .ok (s', true) ∧ s'.n = M ∧ QInv M N perm active r i' s') ∨
      (∃ s', pass M perm active (List.range' i m) s = .ok (s', false) ∧ QInv M N perm active r N s' ∧
        s'.n < M ∧ s.n ≤ s'.n ∧ ((∃ k, i ≤ k ∧ k < N ∧ ActiveAt active k) → s.n < s'.n)) := by
  induction m with
  | zero =>
    intro r i s hi hn hs
    right; right
    have hNi : N = i := by omega
    subst hNi
    refine ⟨s, by simp [pass], hs, hn, Nat.le_refl _, ?_⟩
    rintro ⟨k, h1, h2, _⟩; omega
  | succ m ih =>
    intro r i s hi hn hs
    rw [List.range'_succ]
    have hil : i < active.length := by omega
    unfold pass
    rw [List.getElem?_eq_getElem hil]
    simp only []
    by_cases hneg : active[i] < 0
    · rw [if_pos hneg]
      have hna : ¬ ActiveAt active i := by
        rintro ⟨fw, h, h0⟩
        rw [List.getElem?_eq_getElem hil] at h; injection h with h; omega
      rcases ih r (i + 1) s (by omega) hn (hs.skip hna) with h | ⟨s', i', h1, h2⟩ | ⟨s', h1, h2, h3, h4, h5⟩
      · exact Or.inl h
      · exact Or.inr (Or.inl ⟨s', i', h1, h2⟩)
      · refine Or.inr (Or.inr ⟨s', h1, h2, h3, h4, ?_⟩)
        rintro ⟨k, hk1, hk2, hk3⟩
        apply h5
        refine ⟨k, ?_, hk2, hk3⟩
        have : k ≠ i := by rintro rfl; exact hna hk3
        omega
    · rw [if_neg hneg]
      have hact : ActiveAt active i := ⟨active[i], List.getElem?_eq_getElem hil, by omega⟩
      rcases place_res perm i s with ⟨s', hp⟩ | hp
      · obtain ⟨hn', hq⟩ := place_q hs hact hp
        rw [hp]
        by_cases hM : s'.n = M
        · simp only [hM, if_true]
          exact Or.inr (Or.inl ⟨s', i + 1, rfl, hM, hq⟩)
        · simp only [hM, if_false]
          rcases ih r (i + 1) s' (by omega) (by omega) hq with h | ⟨s'', i', h1, h2⟩ | ⟨s'', h1, h2, h3, h4, h5⟩
          · exact Or.inl h
          · exact Or.inr (Or.inl ⟨s'', i', h1, h2⟩)
          · exact Or.inr (Or.inr ⟨s'', h1, h2, h3, by omega, fun _ => by omega⟩)
      · rw [hp]; exact Or.inl rfl

theorem activeAt_lt {active : List Int} {k : Nat} (h : ActiveAt active k) : k < active.length := by
  obtain ⟨fw, h, _⟩ := h
  rcases Nat.lt_or_ge k active.length with h' | h'
  · exact h'
  · rw [List.getElem?_eq_none h'] at h; simp at h

theorem passes_q {M N : Nat} {perm : List (List Nat)} {active : List Int} (hlen : active.length = N)
    (hact : ∃ k, ActiveAt active k) (fuel : Nat) :
    ∀ r s, M ≤ s.n + fuel → s.n < M → QInv M N perm active r 0 s →
      passes M N perm active fuel s = .ub ∨
      ∃ s' r' i', passes M N perm active fuel s = .ok s'.lookup ∧ s'.n = M ∧ QInv M N perm active r' i' s' := by
  induction fuel with
  | zero => intro r s hf hn hs; omega
  | succ fuel ih =>
    intro r s hf hn hs
    unfold passes
    have hrange : List.range N = List.range' 0 N := List.range_eq_range'
    rcases pass_q hlen N r 0 s (by omega) hn hs with h | ⟨s', i', h1, h2, h3⟩ | ⟨s', h1, h2, h3, h4, h5⟩
    · left; rw [hrange, h]
    · right; rw [hrange, h1]; exact ⟨s', r, i', rfl, h2, h3⟩
    · rw [hrange, h1]
      have hlt : s.n < s'.n := by
        obtain ⟨k, hk⟩ := hact
        exact h5 ⟨k, by omega, by rw [← hlen]; exact activeAt_lt hk, hk⟩
      refine ih (r + 1) s' (by omega) h3 ?_
      refine { h2 with even := ?_ }
      intro k hk
      rw [h2.even k hk]
      have : k < N := by rw [← hlen]; exact activeAt_lt hk
      simp [this]

/-- `populate` returns or has undefined behaviour; when it returns the table is good and balanced and
each assigned slot occurs in one of the rows, whatever the rows are. -/
theorem populateLookup_res {M N : Nat} (perm : List (List Nat)) {active : List Int}
    (hM : 0 < M) (hlen : active.length = N) :
    populateLookup M N perm active = .ub ∨
    ∃ l, populateLookup M N perm active = .ok l ∧ GoodTable M l active ∧ Balanced l active ∧
      ((∃ k, ActiveAt active k) → ∀ c, c < M → ∃ (k : Nat) (row : List Nat), perm[k]? = some row ∧ c ∈ row) := by
  unfold populateLookup
  by_cases hz : nActive active = 0
  · right
    refine ⟨List.replicate M (-1), by simp [hz], ⟨?_, ?_⟩, ?_, ?_⟩
    · intro h; exact absurd hz ((nActive_pos_iff active).2 h)
    · intro _
      refine ⟨by simp, ?_⟩
      intro c hc
      rw [List.getElem?_replicate]; simp [hc]
    · intro i j hi _
      exact absurd hz ((nActive_pos_iff active).2 ⟨i, hi⟩)
    · intro h; exact absurd hz ((nActive_pos_iff active).2 h)
  · have hact := (nActive_pos_iff active).1 hz
    have hinv : QInv M N perm active 0 0
        { lookup := List.replicate M (-1), next := List.replicate N 0, n := 0 } := by
      refine ⟨by simp, ?_, ?_, ?_, ?_⟩
      · simp only [filled, List.countP_replicate]; simp
      · intro v hv; left; exact List.eq_of_mem_replicate hv
      · intro k hk
        simp only [slots, List.count_replicate]
        simp
      · intro c v hc hv
        simp only [List.getElem?_replicate] at hc
        split at hc
        · injection hc with hc; omega
        · simp at hc
    rcases passes_q hlen hact M 0 _ (by simp) hM hinv with h | ⟨s', r', i', h1, hn, h2⟩
    · left; simp only [hz, if_false]; exact h
    right
    have hall : ∀ a ∈ s'.lookup, decide (0 ≤ a) = true := by
      apply List.countP_eq_length.1
      have := h2.count
      unfold filled at this
      rw [this, h2.lookupLen, hn]
    refine ⟨s'.lookup, by simp only [hz, if_false]; exact h1, ⟨?_, ?_⟩, ?_, ?_⟩
    · intro _
      refine ⟨h2.lookupLen, ?_⟩
      intro c hc
      have hcl : c < s'.lookup.length := by rw [h2.lookupLen]; exact hc
      have hm : s'.lookup[c] ∈ s'.lookup := List.getElem_mem hcl
      have hnn : 0 ≤ s'.lookup[c] := by simpa using hall _ hm
      rcases h2.valid _ hm with h | ⟨k, hk, hka⟩
      · omega
      · exact ⟨k, by rw [List.getElem?_eq_getElem hcl, hk], hka⟩
    · intro h; exact absurd hact h
    · intro i j hi hj
      rw [h2.even i hi, h2.even j hj]
      split <;> split <;> omega
    · intro _ c hc
      have hcl : c < s'.lookup.length := by rw [h2.lookupLen]; exact hc
      exact h2.fromRow c s'.lookup[c] (List.getElem?_eq_getElem hcl) (by simpa using hall _ (List.getElem_mem hcl))

end Nfqlb.Maglev
