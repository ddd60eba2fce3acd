import Verif.Proof.FlowBuilt

/-! Ports that were accepted: the text for them is never longer than the text that they were given by. -/

set_option autoImplicit false

namespace Nfqlb.Flow

open Nfqlb.Spec Nfqlb.Spec.FL Nfqlb.Spec.RS Nfqlb.RS Nfqlb.RS.Tree

/-! ### Numbers -/

theorem ofDigit_lt : ∀ (ds : List Char) (n : Nat), (∀ c ∈ ds, c.isDigit = true) → Nat.ofDigitChars 10 ds n < 10 ^ ds.length * (n + 1)
  | [], n, _ => by simp
  | c :: ds, n, h => by
    rw [Nat.ofDigitChars_cons]
    have hc : c.toNat - '0'.toNat < 10 := by
      have := h c (by simp)
      simp only [Char.isDigit, Bool.and_eq_true, decide_eq_true_eq] at this
      have h1 : c.toNat ≤ 57 := this.2
      have : '0'.toNat = 48 := rfl
      omega
    have := ofDigit_lt ds (10 * n + (c.toNat - '0'.toNat)) (fun x hx => h x (by simp [hx]))
    refine Nat.lt_of_lt_of_le this ?_
    rw [List.length_cons, Nat.pow_succ, Nat.mul_assoc]
    exact Nat.mul_le_mul_left _ (by omega)

theorem takeWhile_drop (p : Char → Bool) (s : List Char) : (s.takeWhile p).length + (s.dropWhile p).length = s.length := by
  rw [← List.length_append, List.takeWhile_append_dropWhile]

/-- A port number is not longer than what it was read from. -/
theorem scanU_len {s : List Char} {v : Nat} {r : List Char} (h : CText.scanU s = some (v, r)) (hv : v ≤ 65535) : (Nat.toDigits 10 v).length + r.length ≤ s.length := by
  unfold CText.scanU at h
  simp only [Option.ite_none_left_eq_some, Option.some.injEq, Prod.mk.injEq] at h
  obtain ⟨h1, h2, h3⟩ := h
  generalize he : (if ((s.dropWhile CText.isSpace).head? == some '-' || (s.dropWhile CText.isSpace).head? == some '+') = true then (s.dropWhile CText.isSpace).drop 1 else s.dropWhile CText.isSpace) = t at h1 h2 h3
  have ht : t.length ≤ s.length := by
    have h4 : (s.dropWhile CText.isSpace).length ≤ s.length := by have := takeWhile_drop CText.isSpace s; omega
    rw [← he]
    split
    · rw [List.length_drop]; omega
    · exact h4
  have hsum := takeWhile_drop Char.isDigit t
  rw [h3] at hsum
  have hd : ∀ c ∈ t.takeWhile Char.isDigit, c.isDigit = true := fun c hc => List.all_eq_true.1 (List.all_takeWhile (l := t)) c hc
  have hlt := ofDigit_lt (t.takeWhile Char.isDigit) 0 hd
  simp only [Nat.zero_add, Nat.mul_one] at hlt
  have hpos : 0 < (t.takeWhile Char.isDigit).length := List.length_pos_iff.2 h1
  have : (Nat.toDigits 10 v).length ≤ (t.takeWhile Char.isDigit).length := by
    rw [Nat.length_toDigits_le_iff (by decide) hpos]
    generalize hk : (t.takeWhile Char.isDigit).length = k at hlt hpos
    generalize hx : Nat.ofDigitChars 10 (t.takeWhile Char.isDigit) 0 = x at hlt h2
    by_cases h5 : 5 ≤ k
    · have : 10 ^ 5 ≤ 10 ^ k := Nat.pow_le_pow_right (by decide) h5
      omega
    · have hk5 : 10 ^ k ≤ 10 ^ 4 := Nat.pow_le_pow_right (by decide) (by omega)
      rw [if_neg (by omega)] at h2
      rw [← h2] at hv ⊢
      split at hv <;> rename_i hn
      · rw [if_pos hn]
        unfold u32 u64 at *
        have : x = 0 := by omega
        subst this
        omega
      · rw [if_neg hn]
        unfold u32 at *
        omega
  omega

/-! ### The text of the ranges -/

theorem showRange_len (r : Nat × Nat) : (showRange r).length = if r.1 = r.2 then (Nat.toDigits 10 r.1).length + 1 else (Nat.toDigits 10 r.1).length + (Nat.toDigits 10 r.2).length + 2 := by
  unfold showRange
  split
  · simp
  · simp; omega

theorem showRange_ge (r : Nat × Nat) : (Nat.toDigits 10 r.1).length + 1 ≤ (showRange r).length ∧ (Nat.toDigits 10 r.2).length + 1 ≤ (showRange r).length := by
  rw [showRange_len]
  split
  · rename_i h; rw [h]; omega
  · omega

theorem mergeR_len (r : Nat × Nat) (l : List (Nat × Nat)) : (showRanges (mergeR r l)).length ≤ (showRanges (r :: l)).length := by
  induction l generalizing r with
  | nil => exact Nat.le_refl _
  | cons s l ih =>
    unfold mergeR
    have e : ∀ (x : Nat × Nat) (m : List (Nat × Nat)), (showRanges (x :: m)).length = (showRange x).length + (showRanges m).length := by
      intro x m; simp [showRanges]
    by_cases h : s.1 ≤ r.2 + 1
    · rw [if_pos h]
      have := ih (r.1, max r.2 s.2)
      have h1 : (showRange (r.1, max r.2 s.2)).length ≤ (showRange r).length + (showRange s).length := by
        by_cases hm : s.2 ≤ r.2
        · rw [Nat.max_eq_left hm]; show (showRange r).length ≤ _; omega
        · rw [Nat.max_eq_right (by omega)]
          have a := showRange_ge r
          have b := showRange_ge s
          rw [showRange_len]
          simp only
          split <;> omega
      rw [e] at this ⊢
      rw [e]
      omega
    · rw [if_neg h]
      have := ih s
      rw [e, e]
      omega

theorem perm_len {l m : List (Nat × Nat)} (h : l.Perm m) : (showRanges l).length = (showRanges m).length := by
  induction h with
  | nil => rfl
  | cons x _ ih => simp only [showRanges, List.flatMap_cons, List.length_append] at *; omega
  | swap x y l => simp only [showRanges, List.flatMap_cons, List.length_append]; omega
  | trans _ _ a b => omega

/-- Of all lists of ranges for the same numbers, the one that is sorted and merged has the shortest text. -/
theorem spaced_len {l m : List (Nat × Nat)} (hl : Spaced l) (hm : ∀ r ∈ m, r.1 ≤ r.2) (h : ∀ v, Covers l v ↔ Covers m v) : (showRanges l).length ≤ (showRanges m).length := by
  have hp := List.mergeSort_perm m (fun a b => decide (a.1 ≤ b.1))
  have hs : (m.mergeSort (fun a b => decide (a.1 ≤ b.1))).Pairwise (fun a b => a.1 ≤ b.1) := by
    have := List.pairwise_mergeSort (le := fun a b : Nat × Nat => decide (a.1 ≤ b.1)) (by intro a b c; simp; omega) (by intro a b; simp; omega) m
    exact this.imp (by intro a b; simp)
  rw [← perm_len hp]
  have hc : ∀ v, Covers m v ↔ Covers (m.mergeSort (fun a b => decide (a.1 ≤ b.1))) v := by
    intro v
    unfold Covers
    simp only [hp.mem_iff]
  have hv : ∀ r ∈ m.mergeSort (fun a b => decide (a.1 ≤ b.1)), r.1 ≤ r.2 := fun r hr => hm r (hp.mem_iff.1 hr)
  generalize m.mergeSort (fun a b => decide (a.1 ≤ b.1)) = n at hs hc hv
  cases n with
  | nil =>
    cases l with
    | nil => exact Nat.le_refl _
    | cons r l =>
      have := (h r.1).1 ⟨r, by simp, Nat.le_refl _, hl.1 r (by simp)⟩
      rw [hc] at this
      simp [Covers] at this
  | cons r n =>
    have h1 := hv r (by simp)
    have h2 : ∀ s ∈ n, s.1 ≤ s.2 := fun s hs => hv s (by simp [hs])
    have he : l = mergeR r n := spaced_unique l _ hl (mergeR_spaced r n h1 h2 hs).1 (fun v => by rw [h, hc, mergeR_covers r n h1 h2 hs])
    rw [he]
    exact mergeR_len r n

/-! ### Ports that were accepted -/

theorem addOne_zero {h : Heap} {t : RangeSet} {tok : List Char} {h' : Heap} {t' : RangeSet} (hi : t.highest ≤ 65535) (e : rangeSetAddOneStr h t tok = (h', t', 0)) :
    ∃ r, Allowed t.lowest t.highest r ∧ (h', t', 0) = rangeSetAdd h t r.1 r.2 ∧ (showRange r).length ≤ tok.length + 1 := by
  have hadd : ∀ a b, rangeSetAdd h t a b = (h', t', 0) → Allowed t.lowest t.highest (a, b) := by
    intro a b hab
    unfold rangeSetAdd at hab
    unfold Allowed
    split at hab
    · cases hab
    · split at hab
      · cases hab
      · split at hab
        · cases hab
        · simp only; omega
  unfold rangeSetAddOneStr at e
  split at e
  · split at e
    · rename_i first r e1
      split at e
      · rename_i last r2 e2
        split at e
        · cases e
        · have ha := hadd _ _ e
          refine ⟨(first, last), ha, e.symm, ?_⟩
          obtain ⟨a1, a2, a3⟩ := ha
          simp only at a1 a2 a3
          have l1 := scanU_len e1 (by omega)
          have l2 := scanU_len e2 (by omega)
          rw [List.length_cons] at l1
          rw [showRange_len]
          simp only
          split <;> omega
      · cases e
    · cases e
  · split at e
    · rename_i first r e1
      have ha := hadd _ _ e
      refine ⟨(first, first), ha, e.symm, ?_⟩
      obtain ⟨a1, a2, a3⟩ := ha
      simp only at a1 a2 a3
      have l1 := scanU_len e1 (by omega)
      rw [showRange_len, if_pos rfl]
      simp only
      omega
    · cases e

theorem addToks_zero : ∀ (toks : List (List Char)) (h : Heap) (t : RangeSet) {h' : Heap} {t' : RangeSet}, t.highest ≤ 65535 → addToks h t toks = (h', t', 0) →
    ∃ l, (∀ r ∈ l, Allowed t.lowest t.highest r) ∧ l.length ≤ toks.length ∧ h' = (addAll h t l).1 ∧ t' = (addAll h t l).2.1 ∧ (showRanges l).length ≤ (toks.map (fun x => x.length + 1)).sum
  | [], h, t, h', t', _, e => by cases e; exact ⟨[], by simp, by simp, rfl, rfl, by simp [showRanges]⟩
  | tok :: toks, h, t, h', t', hi, e => by
    simp only [addToks] at e
    rcases he : rangeSetAddOneStr h t tok with ⟨h1, t1, x⟩
    rw [he] at e
    simp only at e
    split at e
    · cases e
    · rename_i hx
      simp only [ne_eq, not_not] at hx
      subst hx
      obtain ⟨r, ha, hr, hlen⟩ := addOne_zero hi he
      have hlim : t1.lowest = t.lowest ∧ t1.highest = t.highest := by
        unfold rangeSetAdd at hr
        split at hr
        · cases hr
        · split at hr
          · cases hr
          · split at hr
            · cases hr
            · cases hr; exact ⟨rfl, rfl⟩
      obtain ⟨l, k1, k2, k3, k4, k5⟩ := addToks_zero toks h1 t1 (by rw [hlim.2]; exact hi) e
      refine ⟨r :: l, ?_, by simp; omega, ?_, ?_, ?_⟩
      · intro s hs
        rw [List.mem_cons] at hs
        rcases hs with rfl | hs
        · exact ha
        · have := k1 s hs
          rw [hlim.1, hlim.2] at this
          exact this
      · simp only [addAll, ← hr]; exact k3
      · simp only [addAll, ← hr]; exact k4
      · simp only [showRanges, List.flatMap_cons, List.length_append, List.map_cons, List.sum_cons] at *
        omega

theorem tokens_sum (seps : List Char) : ∀ (s cur : List Char), ((CText.tokensAux seps cur s).map (fun x => x.length + 1)).sum ≤ cur.length + s.length + 1
  | [], cur => by
    unfold CText.tokensAux
    split <;> simp
  | c :: s, cur => by
    unfold CText.tokensAux
    split
    · split
      · have := tokens_sum seps s []
        simp only [List.length_nil, List.length_cons] at *
        omega
      · have := tokens_sum seps s []
        simp only [List.length_nil, List.length_cons, List.map_cons, List.sum_cons, List.length_reverse] at *
        omega
    · have := tokens_sum seps s (c :: cur)
      simp only [List.length_cons] at *
      omega

/-- What is known about ports that were accepted. -/
theorem ports_accepted {rq : (Nat → Nat) → List Nat → List Nat} (hq : QSort rq) {s : List Char} {p : Ports} (h : definePorts rq s = .ok (p, true)) :
    ∃ T, Inv p.heap p.set T .leaf ∧ (∀ r ∈ vals T, Allowed 1 65535 r) ∧ (showRanges (vals T)).length ≤ s.length + 1 ∧ (showRanges (vals T)).length ≤ 1025 := by
  have h0 : Inv noHeap ⟨0, 1, 65535, none, none⟩ .leaf .leaf := Inv.empty rfl rfl rfl (by show 65535 ≤ 4294967295; omega)
  have hc : rangeSetCreateLimited 1 65535 = some ⟨0, 1, 65535, none, none⟩ := by decide
  unfold definePorts rangeSetAddStr at h
  rw [hc] at h
  dsimp only at h
  rcases he : addToks noHeap ⟨0, 1, 65535, none, none⟩ (CText.tokens [',', ' '] (s.take 1024)) with ⟨h1, t1, x⟩
  rw [he] at h
  dsimp only at h
  split at h
  · cases h
  · rename_i hx
    simp only [ne_eq, not_not] at hx
    subst hx
    obtain ⟨l, k1, k2, k3, k4, k5⟩ := addToks_zero _ _ _ (by show 65535 ≤ 65535; omega) he
    have hu : Unsigned l := fun r hr => by
      obtain ⟨a, b, c⟩ := k1 r hr
      simp only at b c
      omega
    have hsum := tokens_sum [',', ' '] (s.take 1024) []
    have htl := tokensAux_len [',', ' '] (s.take 1024) []
    have htake : (s.take 1024).length ≤ 1024 ∧ (s.take 1024).length ≤ s.length := by rw [List.length_take]; omega
    simp only [List.length_nil] at hsum
    unfold CText.tokens at k2 k5
    obtain ⟨h2, t2, A, e1, H1, v1, lo1, hi1, _⟩ := addAll_ok l h0 hu (by simp only; omega)
    rw [e1] at k3 k4
    simp only at k3 k4
    subst k3 k4
    obtain ⟨h3, t3, T, e2, H2, v2, lo2, hi2, _⟩ := update_ok hq H1 (.inl rfl)
    rw [e2] at h
    simp only [Res.ok_bind, Res.pure_eq, Res.ok.injEq, Prod.mk.injEq, and_true] at h
    subst h
    have hA : vals A = l := by
      rw [v1]
      simp only [vals, List.nil_append]
      rw [List.filter_eq_self]
      intro r hr
      exact decide_eq_true (k1 r hr)
    have hcov : ∀ v, Covers (vals T) v ↔ Covers l v := by
      intro v; rw [v2, hA]; simp [vals]
    have hle := spaced_len H2.sp (fun r hr => (k1 r hr).1) hcov
    refine ⟨T, H2, ?_, by omega, by omega⟩
    intro r hr
    have := H2.lim r (by simp [hr])
    rw [lo2, hi2, lo1, hi1] at this
    exact ⟨H2.sp.1 r hr, this.1, this.2⟩

end Nfqlb.Flow
