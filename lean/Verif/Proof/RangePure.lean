import Verif.Spec.RangeSet

/-! Lists of ranges: merging, minimality, and the shape of the balanced tree. -/

set_option autoImplicit false

namespace Nfqlb.RS

open Nfqlb.Spec.RS

/-- The merge loop on ranges. -/
def mergeR (r : Nat × Nat) : List (Nat × Nat) → List (Nat × Nat)
  | [] => [r]
  | s :: l => if s.1 ≤ r.2 + 1 then mergeR (r.1, max r.2 s.2) l else r :: mergeR s l

theorem mergeR_head (r : Nat × Nat) (l : List (Nat × Nat)) : ∃ b tl, mergeR r l = (r.1, b) :: tl ∧ r.2 ≤ b := by
  induction l generalizing r with
  | nil => exact ⟨r.2, [], rfl, Nat.le_refl _⟩
  | cons s l ih =>
    unfold mergeR
    by_cases h : s.1 ≤ r.2 + 1
    · rw [if_pos h]
      obtain ⟨b, tl, e, hb⟩ := ih (r.1, max r.2 s.2)
      exact ⟨b, tl, e, by simp only at hb; omega⟩
    · rw [if_neg h]
      exact ⟨r.2, _, rfl, Nat.le_refl _⟩

theorem covers_cons (r : Nat × Nat) (l : List (Nat × Nat)) (v : Nat) : Covers (r :: l) v ↔ (r.1 ≤ v ∧ v ≤ r.2) ∨ Covers l v := by
  simp [Covers]

theorem mergeR_covers (r : Nat × Nat) (l : List (Nat × Nat)) (hr : r.1 ≤ r.2) (hv : ∀ s ∈ l, s.1 ≤ s.2) (hs : (r :: l).Pairwise (fun a b => a.1 ≤ b.1)) (v : Nat) :
    Covers (mergeR r l) v ↔ Covers (r :: l) v := by
  induction l generalizing r with
  | nil => rfl
  | cons s l ih =>
    rw [List.pairwise_cons, List.pairwise_cons] at hs
    obtain ⟨h1, h2, h3⟩ := hs
    have hrs := h1 s (by simp)
    unfold mergeR
    have hsv := hv s (by simp)
    by_cases h : s.1 ≤ r.2 + 1
    · rw [if_pos h, ih (r.1, max r.2 s.2) (by simp only; omega) (fun x hx => hv x (by simp [hx])) (by
        rw [List.pairwise_cons]
        exact ⟨fun x hx => h1 x (by simp [hx]), h3⟩)]
      rw [covers_cons, covers_cons, covers_cons]
      simp only
      constructor
      · rintro (h9 | h9)
        · by_cases hv : v ≤ r.2
          · left; omega
          · right; left; omega
        · right; right; exact h9
      · rintro (h9 | h9 | h9)
        · left; omega
        · left; omega
        · right; exact h9
    · rw [if_neg h, covers_cons, ih s hsv (fun x hx => hv x (by simp [hx])) (by rw [List.pairwise_cons]; exact ⟨h2, h3⟩), covers_cons r]

theorem mergeR_spaced (r : Nat × Nat) (l : List (Nat × Nat)) (hr : r.1 ≤ r.2) (hv : ∀ s ∈ l, s.1 ≤ s.2) (hs : (r :: l).Pairwise (fun a b => a.1 ≤ b.1)) :
    Spaced (mergeR r l) ∧ ∀ x ∈ mergeR r l, r.1 ≤ x.1 := by
  induction l generalizing r with
  | nil => simp [mergeR, Spaced, hr]
  | cons s l ih =>
    rw [List.pairwise_cons, List.pairwise_cons] at hs
    obtain ⟨h1, h2, h3⟩ := hs
    have hrs := h1 s (by simp)
    have hsv := hv s (by simp)
    unfold mergeR
    by_cases h : s.1 ≤ r.2 + 1
    · rw [if_pos h]
      exact ih (r.1, max r.2 s.2) (by simp only; omega) (fun x hx => hv x (by simp [hx])) (by
        rw [List.pairwise_cons]
        exact ⟨fun x hx => h1 x (by simp [hx]), h3⟩)
    · rw [if_neg h]
      obtain ⟨⟨i1, i2⟩, i3⟩ := ih s hsv (fun x hx => hv x (by simp [hx])) (by rw [List.pairwise_cons]; exact ⟨h2, h3⟩)
      refine ⟨⟨?_, ?_⟩, ?_⟩
      · intro x hx
        rcases List.mem_cons.1 hx with rfl | hx
        · exact hr
        · exact i1 x hx
      · rw [List.pairwise_cons]
        refine ⟨?_, i2⟩
        intro x hx
        have := i3 x hx
        omega
      · intro x hx
        rcases List.mem_cons.1 hx with rfl | hx
        · exact Nat.le_refl _
        · have := i3 x hx
          omega

theorem mergeR_bound (r : Nat × Nat) (l : List (Nat × Nat)) (B : Nat) (hr : r.2 ≤ B) (hv : ∀ s ∈ l, s.2 ≤ B) : ∀ x ∈ mergeR r l, x.2 ≤ B := by
  induction l generalizing r with
  | nil => intro x hx; simp [mergeR] at hx; subst hx; exact hr
  | cons s l ih =>
    have hsv := hv s (by simp)
    unfold mergeR
    by_cases h : s.1 ≤ r.2 + 1
    · rw [if_pos h]
      exact ih (r.1, max r.2 s.2) (by simp only; omega) (fun x hx => hv x (by simp [hx]))
    · rw [if_neg h]
      intro x hx
      rcases List.mem_cons.1 hx with rfl | hx
      · exact hr
      · exact ih s hsv (fun x hx => hv x (by simp [hx])) x hx

theorem mergeR_low (r : Nat × Nat) (l : List (Nat × Nat)) (B : Nat) (hr : B ≤ r.1) (hv : ∀ s ∈ l, B ≤ s.1) : ∀ x ∈ mergeR r l, B ≤ x.1 := by
  induction l generalizing r with
  | nil => intro x hx; simp [mergeR] at hx; subst hx; exact hr
  | cons s l ih =>
    have hsv := hv s (by simp)
    unfold mergeR
    by_cases h : s.1 ≤ r.2 + 1
    · rw [if_pos h]
      exact ih (r.1, max r.2 s.2) hr (fun x hx => hv x (by simp [hx]))
    · rw [if_neg h]
      intro x hx
      rcases List.mem_cons.1 hx with rfl | hx
      · exact hr
      · exact ih s hsv (fun x hx => hv x (by simp [hx])) x hx

/-- If nothing touches, nothing is merged. -/
theorem mergeR_spaced_id (r : Nat × Nat) (l : List (Nat × Nat)) (h : (r :: l).Pairwise (fun r s => r.2 + 1 < s.1)) : mergeR r l = r :: l := by
  induction l generalizing r with
  | nil => rfl
  | cons s l ih =>
    have h1 : r.2 + 1 < s.1 := (List.pairwise_cons.1 h).1 s (by simp)
    unfold mergeR
    rw [if_neg (by omega), ih s (List.pairwise_cons.1 h).2]

/-! ### Minimality -/

theorem spaced_tail {r : Nat × Nat} {l : List (Nat × Nat)} (h : Spaced (r :: l)) : Spaced l :=
  ⟨fun x hx => h.1 x (by simp [hx]), (List.pairwise_cons.1 h.2).2⟩

/-- No fewer ranges give the same set. -/
theorem spaced_minimal : ∀ (l m : List (Nat × Nat)), Spaced l → (∀ v, Covers l v ↔ Covers m v) → l.length ≤ m.length := by
  -- generalisation: m covers l's numbers, and outside l nothing up to the end of l
  have key : ∀ (l m : List (Nat × Nat)), Spaced l → (∀ v, Covers l v → Covers m v) → (∀ r ∈ m, ∀ v, r.1 ≤ v → v ≤ r.2 → (∃ s ∈ l, s.1 ≤ v) → Covers l v) →
      l.length ≤ m.length := by
    intro l
    induction l with
    | nil => intro m _ _ _; exact Nat.zero_le _
    | cons x l ih =>
      intro m hs h1 h2
      have hx := hs.1 x (by simp)
      obtain ⟨r, hr, hr1, hr2⟩ := h1 x.1 (by rw [covers_cons]; exact .inl ⟨Nat.le_refl _, hx⟩)
      -- r does not reach into l
      have hpw := (List.pairwise_cons.1 hs.2).1
      have hgap : ∀ s ∈ l, r.2 < s.1 := by
        intro s hsl
        apply Classical.byContradiction
        intro hc
        have hlt := hpw s hsl
        have := h2 r hr (x.2 + 1) (by omega) (by omega) ⟨x, by simp, by omega⟩
        rw [covers_cons] at this
        rcases this with h9 | ⟨y, hy, h9⟩
        · omega
        · have := hpw y hy; omega
      have hlen : (m.erase r).length + 1 = m.length := by
        rw [List.length_erase_of_mem hr]
        have : 0 < m.length := List.length_pos_of_mem hr
        omega
      have := ih (m.erase r) (spaced_tail hs) ?_ ?_
      · simp only [List.length_cons]; omega
      · intro v ⟨s, hsl, hv⟩
        obtain ⟨r', hr', hv'⟩ := h1 v (by rw [covers_cons]; exact .inr ⟨s, hsl, hv⟩)
        refine ⟨r', ?_, hv'⟩
        have hne : r' ≠ r := by
          rintro rfl
          have := hgap s hsl
          omega
        exact (List.mem_erase_of_ne hne).2 hr'
      · intro r' hr' v ha hb ⟨s, hsl, hsv⟩
        have := h2 r' (List.mem_of_mem_erase hr') v ha hb ⟨s, by simp [hsl], hsv⟩
        rw [covers_cons] at this
        rcases this with h9 | h9
        · have := hpw s hsl; omega
        · exact h9
  intro l m hs h
  refine key l m hs (fun v => (h v).1) ?_
  intro r hr v ha hb _
  exact (h v).2 ⟨r, hr, ha, hb⟩

/-- A spaced list is determined by the set. -/
theorem spaced_unique : ∀ (l m : List (Nat × Nat)), Spaced l → Spaced m → (∀ v, Covers l v ↔ Covers m v) → l = m := by
  intro l
  induction l with
  | nil =>
    intro m _ hm h
    cases m with
    | nil => rfl
    | cons y m =>
      have := (h y.1).2 (by rw [covers_cons]; exact .inl ⟨Nat.le_refl _, hm.1 y (by simp)⟩)
      obtain ⟨r, hr, _⟩ := this
      cases hr
  | cons x l ih =>
    intro m hl hm h
    have hx := hl.1 x (by simp)
    have hpx := (List.pairwise_cons.1 hl.2).1
    cases m with
    | nil =>
      have := (h x.1).1 (by rw [covers_cons]; exact .inl ⟨Nat.le_refl _, hx⟩)
      obtain ⟨r, hr, _⟩ := this
      cases hr
    | cons y m =>
      have hy := hm.1 y (by simp)
      have hpy := (List.pairwise_cons.1 hm.2).1
      have lowl : ∀ v, Covers (x :: l) v → x.1 ≤ v := by
        intro v hv
        rw [covers_cons] at hv
        rcases hv with hv | ⟨s, hs, hv⟩
        · omega
        · have := hpx s hs; omega
      have lowm : ∀ v, Covers (y :: m) v → y.1 ≤ v := by
        intro v hv
        rw [covers_cons] at hv
        rcases hv with hv | ⟨s, hs, hv⟩
        · omega
        · have := hpy s hs; omega
      have e1 : x.1 = y.1 := by
        have a := lowl y.1 ((h _).2 (by rw [covers_cons]; omega))
        have b := lowm x.1 ((h _).1 (by rw [covers_cons]; omega))
        omega
      have e2 : x.2 = y.2 := by
        rcases Nat.lt_trichotomy x.2 y.2 with hlt | heq | hgt
        · have := (h (x.2 + 1)).2 (by rw [covers_cons]; left; omega)
          rw [covers_cons] at this
          rcases this with h9 | ⟨s, hs, h9⟩
          · omega
          · have := hpx s hs; omega
        · exact heq
        · have := (h (y.2 + 1)).1 (by rw [covers_cons]; left; omega)
          rw [covers_cons] at this
          rcases this with h9 | ⟨s, hs, h9⟩
          · omega
          · have := hpy s hs; omega
      have exy : x = y := Prod.ext e1 e2
      subst exy
      congr 1
      refine ih m (spaced_tail hl) (spaced_tail hm) ?_
      intro v
      have := h v
      rw [covers_cons, covers_cons] at this
      constructor
      · intro hv
        obtain ⟨s, hs, h9⟩ := hv
        have h8 := hpx s hs
        rcases this.1 (.inr ⟨s, hs, h9⟩) with h7 | h7
        · omega
        · exact h7
      · intro hv
        obtain ⟨s, hs, h9⟩ := hv
        have h8 := hpy s hs
        rcases this.2 (.inr ⟨s, hs, h9⟩) with h7 | h7
        · omega
        · exact h7

end Nfqlb.RS
