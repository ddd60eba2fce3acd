import Verif.Proof.RangeBuild

/-! The invariant of a range set, and what adding and updating do. -/

set_option autoImplicit false

namespace Nfqlb.RS

open Nfqlb.Spec.RS Tree

structure Inv (h : Heap) (t : RangeSet) (T A : Tree) : Prop where
  rt : Rep h t.root T
  ra : Rep h t.added A
  nd : (addrs T ++ addrs A).Nodup
  lt : ∀ a ∈ addrs T ++ addrs A, a < h.next
  only : ∀ a, h.node a ≠ none → a ∈ addrs T ++ addrs A
  sp : Spaced (vals T)
  va : ∀ r ∈ vals A, r.1 ≤ r.2
  lim : ∀ r ∈ vals T ++ vals A, t.lowest ≤ r.1 ∧ r.2 ≤ t.highest
  hi : t.highest ≤ 4294967295
  cnt : t.count = (addrs T ++ addrs A).length
  bal : depth T ≤ Nat.log2 (addrs T).length + 1

theorem Inv.empty {t : RangeSet} (h0 : t.count = 0) (h1 : t.root = none) (h2 : t.added = none) (h3 : t.highest ≤ 4294967295) : Inv emptyHeap t .leaf .leaf := by
  refine ⟨h1, h2, by simp [addrs], by simp [addrs], ?_, ?_, by simp [vals], by simp [vals], h3, ?_, by simp [depth]⟩
  · intro a ha; exact absurd rfl ha
  · simp [Spaced, vals]
  · rw [h0]; rfl

theorem Inv.depthT {h : Heap} {t : RangeSet} {T A : Tree} (H : Inv h t T A) : depth T ≤ h.next := by
  have := depth_le T
  have h2 := nodup_bound (l := addrs T) (n := h.next) (List.nodup_append.1 H.nd).1 (fun a ha => H.lt a (by simp [ha]))
  omega

theorem Inv.depthA {h : Heap} {t : RangeSet} {T A : Tree} (H : Inv h t T A) : depth A ≤ h.next := by
  have := depth_le A
  have h2 := nodup_bound (l := addrs A) (n := h.next) (List.nodup_append.1 H.nd).2.1 (fun a ha => H.lt a (by simp [ha]))
  omega

theorem Inv.isIn {h : Heap} {t : RangeSet} {T A : Tree} (H : Inv h t T A) (v : Nat) : rangeSetIn h t v = .ok (decide (Covers (vals T) v)) :=
  H.rt.isIn v (by have := H.depthT; omega) H.sp

theorem Inv.stored {h : Heap} {t : RangeSet} {T A : Tree} (H : Inv h t T A) : stored h t = vals T :=
  H.rt.inorder (by have := H.depthT; omega)

/-! ### Adding -/

theorem add_ok {h : Heap} {t : RangeSet} {T A : Tree} (H : Inv h t T A) (r : Nat × Nat) (hr : r.2 ≤ 4294967295) (hc : t.count < 4294967295) :
    ∃ h' t' A', rangeSetAdd h t r.1 r.2 = (h', t', if Allowed t.lowest t.highest r then 0 else -1) ∧ Inv h' t' T A' ∧
      vals A' = vals A ++ (if Allowed t.lowest t.highest r then [r] else []) ∧ t'.lowest = t.lowest ∧ t'.highest = t.highest ∧ t'.count ≤ t.count + 1 := by
  have hhi := H.hi
  by_cases ha : Allowed t.lowest t.highest r
  · obtain ⟨a1, a2, a3⟩ := ha
    have hfresh : ∀ a ∈ addrs T ++ addrs A, a ≠ h.next := fun a ha => Nat.ne_of_lt (H.lt a ha)
    refine ⟨set { h with next := h.next + 1 } h.next ⟨r.1, r.2, t.added, none⟩, { t with added := some h.next, count := u32 (t.count + 1) },
      .node h.next r A .leaf, ?_, ?_, ?_, ?_, ?_, ?_⟩
    · rw [if_pos ⟨a1, a2, a3⟩]
      unfold rangeSetAdd
      rw [if_neg (by omega), if_neg (by omega), if_neg (by omega)]
    · refine ⟨H.rt.frame ?_, ⟨rfl, t.added, none, ?_, H.ra.frame ?_, rfl⟩, ?_, ?_, ?_, H.sp, ?_, ?_, hhi, ?_, H.bal⟩
      · intro a ha
        simp only [set, if_neg (hfresh a (by simp [ha]))]
      · simp only [set, if_true]
      · intro a ha
        simp only [set, if_neg (hfresh a (by simp [ha]))]
      · have := H.nd
        simp only [addrs]
        rw [← List.append_assoc, List.nodup_append]
        refine ⟨this, by simp, ?_⟩
        intro a ha b hb
        simp only [List.mem_cons, List.not_mem_nil, or_false] at hb
        subst hb
        exact hfresh a ha
      · intro a ha
        simp only [addrs, set, List.mem_append, List.mem_cons, List.not_mem_nil, or_false] at ha ⊢
        rcases ha with ha | ha | ha
        · have := H.lt a (by simp [ha]); omega
        · have := H.lt a (by simp [ha]); omega
        · omega
      · intro a ha
        simp only [set] at ha
        simp only [addrs, List.mem_append, List.mem_cons, List.not_mem_nil, or_false]
        by_cases han : a = h.next
        · exact .inr (.inr han)
        · rw [if_neg han] at ha
          have := H.only a ha
          rw [List.mem_append] at this
          rcases this with h9 | h9
          · exact .inl h9
          · exact .inr (.inl h9)
      · intro x hx
        simp only [vals, List.mem_append, List.mem_cons, List.not_mem_nil, or_false] at hx
        rcases hx with hx | rfl
        · exact H.va x hx
        · exact a1
      · intro x hx
        simp only [vals, List.mem_append, List.mem_cons, List.not_mem_nil, or_false] at hx
        rcases hx with hx | hx | rfl
        · exact H.lim x (by simp [hx])
        · exact H.lim x (by simp [hx])
        · exact ⟨a2, a3⟩
      · have := H.cnt
        simp only [addrs, List.length_append, List.length_cons, List.length_nil] at this ⊢
        unfold u32
        rw [Nat.mod_eq_of_lt (by omega)]
        omega
    · rw [if_pos ⟨a1, a2, a3⟩]; rfl
    · rfl
    · rfl
    · simp only [u32]
      exact Nat.mod_le _ _
  · refine ⟨h, t, A, ?_, H, ?_, rfl, rfl, Nat.le_succ _⟩
    · rw [if_neg ha]
      unfold rangeSetAdd
      by_cases h1 : r.2 < r.1
      · rw [if_pos h1]
      · rw [if_neg h1]
        by_cases h2 : t.lowest > 0 ∧ r.1 < t.lowest
        · rw [if_pos h2]
        · rw [if_neg h2, if_pos]
          unfold Allowed at ha
          omega
    · rw [if_neg ha]; simp

theorem addAll_ok {T : Tree} : ∀ (l : List (Nat × Nat)) {h : Heap} {t : RangeSet} {A : Tree}, Inv h t T A → Unsigned l → t.count + l.length ≤ 4294967295 →
    ∃ h' t' A', addAll h t l = (h', t', l.map (fun r => if Allowed t.lowest t.highest r then 0 else -1)) ∧ Inv h' t' T A' ∧
      vals A' = vals A ++ l.filter (fun r => Allowed t.lowest t.highest r) ∧ t'.lowest = t.lowest ∧ t'.highest = t.highest ∧ t'.count ≤ t.count + l.length
  | [], h, t, A, H, _, _ => ⟨h, t, A, rfl, H, by simp, rfl, rfl, by simp⟩
  | r :: l, h, t, A, H, hu, hc => by
    simp only [List.length_cons] at hc
    obtain ⟨h1, t1, A1, e1, H1, v1, l1, u1, c1⟩ := add_ok H r (hu r (by simp)).2 (by omega)
    obtain ⟨h2, t2, A2, e2, H2, v2, l2, u2, c2⟩ := addAll_ok l H1 (fun x hx => hu x (by simp [hx])) (by omega)
    refine ⟨h2, t2, A2, ?_, H2, ?_, by rw [l2, l1], by rw [u2, u1], ?_⟩
    · simp only [addAll, e1, e2, l1, u1, List.map_cons]
    · rw [v2, v1, l1, u1, List.filter_cons]
      by_cases ha : Allowed t.lowest t.highest r
      · simp [ha]
      · simp [ha]
    · simp only [List.length_cons]; omega

/-! ### Updating -/

theorem keyOf_rng (h : Heap) (a : Nat) : keyOf h a = (rng h a).1 := by
  unfold keyOf rng
  cases h.node a <;> rfl

theorem readAll_ok {h : Heap} : ∀ (l : List Nat), (∀ a ∈ l, h.node a ≠ none) → readAll h l = .ok ()
  | [], _ => rfl
  | a :: l, ha => by
    obtain ⟨n, hn⟩ := alive_iff (ha a (by simp))
    simp only [readAll, get, hn, Res.ok_bind]
    exact readAll_ok l (fun x hx => ha x (by simp [hx]))

theorem covers_perm {l m : List (Nat × Nat)} (hp : l.Perm m) (v : Nat) : Covers l v ↔ Covers m v := by
  simp only [Covers]
  constructor
  · rintro ⟨r, hr, hv⟩; exact ⟨r, hp.mem_iff.1 hr, hv⟩
  · rintro ⟨r, hr, hv⟩; exact ⟨r, hp.mem_iff.2 hr, hv⟩

theorem apart_symm {r s : Nat × Nat} (h : Apart r s) : Apart s r := Or.symm h

theorem mid_of_count {key : Nat → Nat} : ∀ (l : List Nat) (i : Nat) (hi : i < l.length), l.Pairwise (fun a b => key a < key b) → l.countP (fun x => key x < key l[i]) = i
  | [], i, hi, _ => by simp at hi
  | x :: l, 0, hi, hp => by
    rw [List.pairwise_cons] at hp
    simp only [List.getElem_cons_zero]
    rw [List.countP_eq_zero]
    intro a ha
    rcases List.mem_cons.1 ha with rfl | ha
    · simp
    · have := hp.1 a ha
      simp only [decide_eq_true_eq]; omega
  | x :: l, i + 1, hi, hp => by
    rw [List.pairwise_cons] at hp
    simp only [List.getElem_cons_succ]
    have hi' : i < l.length := by simpa using hi
    rw [List.countP_cons_of_pos (by simp only [decide_eq_true_eq]; exact hp.1 _ (List.getElem_mem hi')), mid_of_count l i hi' hp.2]

theorem log2_depth (f : Nat → Nat × Nat) (fuel : Nat) (l : List Nat) : depth (mk f fuel l) ≤ Nat.log2 l.length + 1 :=
  mk_depth f fuel l _ Nat.lt_log2_self

/-- The state after the nodes are merged and before the tree is built. -/
theorem update_ok {qs : (Nat → Nat) → List Nat → List Nat} (hq : QSort qs) {h : Heap} {t : RangeSet} {T A : Tree} (H : Inv h t T A)
    (hcase : T = .leaf ∨ Fits (vals T) (vals A)) :
    ∃ h' t' T', rangeSetUpdate qs h t = .ok (h', t') ∧ Inv h' t' T' .leaf ∧ (∀ v, Covers (vals T') v ↔ Covers (vals T ++ vals A) v) ∧
      t'.lowest = t.lowest ∧ t'.highest = t.highest ∧ t'.count ≤ t.count := by
  have hcnt := H.cnt
  by_cases h0 : t.count = 0
  · have hT : T = .leaf := by
      cases T with
      | leaf => rfl
      | node a r tl tr => simp [addrs] at hcnt; omega
    have hA : A = .leaf := by
      cases A with
      | leaf => rfl
      | node a r tl tr => simp [addrs] at hcnt; omega
    subst hT; subst hA
    refine ⟨h, t, .leaf, ?_, H, fun v => by simp [vals], rfl, rfl, Nat.le_refl _⟩
    unfold rangeSetUpdate
    rw [if_pos h0]
  · -- the nodes
    have e1 := H.rt.store (fuel := h.next + 1) (by have := H.depthT; omega)
    have e2 := H.ra.store (fuel := h.next + 1) (by have := H.depthA; omega)
    have hperm : (post T ++ post A).Perm (addrs T ++ addrs A) := (post_perm T).append (post_perm A)
    have halive : ∀ a ∈ addrs T ++ addrs A, h.node a ≠ none := by
      intro a ha
      rcases List.mem_append.1 ha with ha | ha
      · exact H.rt.alive a ha
      · exact H.ra.alive a ha
    have hvals : (addrs T ++ addrs A).map (rng h) = vals T ++ vals A := by rw [List.map_append, H.rt.rng, H.ra.rng]
    have hlen : (post T ++ post A).length = t.count := by rw [hperm.length_eq, hcnt]
    obtain ⟨hs1, hs2⟩ := hq (keyOf h) (post T ++ post A)
    have hp2 := hs1.trans hperm
    cases hqs : qs (keyOf h) (post T ++ post A) with
    | nil =>
      rw [hqs] at hp2
      have := hp2.length_eq
      simp only [List.length_nil] at this
      omega
    | cons n rest =>
      rw [hqs] at hp2 hs2
      have hmemAll : ∀ a, a ∈ n :: rest ↔ a ∈ addrs T ++ addrs A := fun a => hp2.mem_iff
      have hnd : (n :: rest).Nodup := hp2.nodup_iff.2 H.nd
      have hvp : ((n :: rest).map (rng h)).Perm (vals T ++ vals A) := by rw [← hvals]; exact hp2.map _
      have hval : ∀ r ∈ vals T ++ vals A, r.1 ≤ r.2 := by
        intro r hr
        rcases List.mem_append.1 hr with hr | hr
        · exact H.sp.1 r hr
        · exact H.va r hr
      have hvalN : ∀ a ∈ n :: rest, (rng h a).1 ≤ (rng h a).2 := fun a ha => hval _ (hvp.mem_iff.1 (List.mem_map_of_mem ha))
      have hlimN : ∀ a ∈ n :: rest, t.lowest ≤ (rng h a).1 ∧ (rng h a).2 ≤ t.highest := fun a ha => H.lim _ (hvp.mem_iff.1 (List.mem_map_of_mem ha))
      have hsortN : ((n :: rest).map (rng h)).Pairwise (fun a b => a.1 ≤ b.1) := by
        rw [List.pairwise_map]
        refine List.Pairwise.imp ?_ hs2
        intro a b hab
        rw [keyOf_rng, keyOf_rng] at hab
        exact hab
      have hhi := H.hi
      obtain ⟨h1, l, m1, m2, m3, m4, m5, m6, m7, tl, m8⟩ := mergeLoop_spec rest h n (fun a ha => halive a ((hmemAll a).1 ha)) hnd
        (fun a ha => by have := hlimN a ha; omega) hvalN
      have hspaced := mergeR_spaced (rng h n) (rest.map (rng h)) (hvalN n (by simp)) (by
        intro s hs
        obtain ⟨a, ha, rfl⟩ := List.mem_map.1 hs
        exact hvalN a (by simp [ha])) (by simpa using hsortN)
      have hcovers := mergeR_covers (rng h n) (rest.map (rng h)) (hvalN n (by simp)) (by
        intro s hs
        obtain ⟨a, ha, rfl⟩ := List.mem_map.1 hs
        exact hvalN a (by simp [ha])) (by simpa using hsortN)
      have hNodes : Nodes h1 l := by
        refine ⟨m4, hnd.sublist m2, ?_⟩
        have := hspaced.1
        rw [← m3] at this
        obtain ⟨v1, v2⟩ := this
        rw [List.pairwise_map] at v2
        refine List.Pairwise.imp_of_mem ?_ v2
        intro a b ha hb hab
        have := v1 (rng h1 a) (List.mem_map_of_mem ha)
        omega
      -- placing the middle node
      have hmid : l.length / 2 < l.length := by rw [m8]; simp only [List.length_cons]; omega
      have hmidm : l.getD (l.length / 2) 0 ∈ l := by rw [getD_get hmid]; exact List.getElem_mem _
      obtain ⟨nn, hnn⟩ := alive_iff (m4 _ hmidm)
      have hplace : ∃ h2, place h1 t.root (l.getD (l.length / 2) 0) = .ok h2 ∧ (∃ nn : Node, h2.node (l.getD (l.length / 2) 0) = some { nn with left := none, right := none }) ∧
          (∀ a ∈ l, h2.node a ≠ none) ∧ (∀ a ∈ l, rng h2 a = rng h1 a) ∧ (∀ a, a ∉ l → h2.node a = none ∨ h2.node a = h.node a ∧ a ∉ n :: rest) ∧ h2.next = h.next := by
        rcases hcase with hT | hfit
        · subst hT
          have hroot : t.root = none := H.rt
          rw [hroot]
          refine ⟨set h1 (l.getD (l.length / 2) 0) { nn with left := none, right := none }, ?_, ⟨nn, ?_⟩, ?_, ?_, ?_, m7⟩
          · simp only [place, get, hnn, Res.ok_bind, Res.pure_eq]
          · simp only [set, if_true]
          · intro a ha
            by_cases h9 : a = l.getD (l.length / 2) 0
            · simp [set, h9]
            · simp only [set, if_neg h9]; exact m4 a ha
          · intro a ha
            by_cases h9 : a = l.getD (l.length / 2) 0
            · subst h9
              rw [rng_of hnn]
              simp [rng, set]
            · apply rng_congr
              simp only [set, if_neg h9]
          · intro a ha
            have h9 : a ≠ l.getD (l.length / 2) 0 := fun hc => ha (hc ▸ hmidm)
            simp only [set, if_neg h9]
            by_cases h8 : a ∈ n :: rest
            · exact .inl (m5 a h8 ha)
            · exact .inr ⟨m6 a h8, h8⟩
        · -- nothing is merged
          obtain ⟨hap, m, hmA, hmc⟩ := hfit
          have hap2 : ((n :: rest).map (rng h)).Pairwise Apart := (hvp.pairwise_iff (fun {x y} h => apart_symm h)).2 hap
          have hstrict : ((n :: rest).map (rng h)).Pairwise (fun r s => r.2 + 1 < s.1) := by
            have h9 := hap2.and hsortN
            refine List.Pairwise.imp_of_mem ?_ h9
            rintro r s hr hs ⟨h8 | h8, h7⟩
            · exact h8
            · have := hval r (hvp.mem_iff.1 hr)
              have := hval s (hvp.mem_iff.1 hs)
              omega
          have hid : mergeR (rng h n) (rest.map (rng h)) = (n :: rest).map (rng h) := by
            rw [mergeR_spaced_id _ _ (by simpa using hstrict)]; rfl
          rw [hid] at m3
          have hl : l = n :: rest := by
            apply m2.eq_of_length
            have := congrArg List.length m3
            simpa using this
          have hrngs : ∀ a ∈ l, rng h1 a = rng h a := by
            rw [hl] at m3 ⊢
            exact List.map_inj_left.1 m3
          -- the heap of the old tree is unchanged: no node was written or freed by the merge loop
          have hsame : ∀ (rest : List Nat) (n : Nat) (h h1 : Heap) (l : List Nat), mergeLoop h n rest = .ok (h1, l) → l = n :: rest → h1 = h := by
            intro rest
            induction rest with
            | nil =>
              intro n h h1 l he _
              simp only [mergeLoop, Res.ok.injEq, Prod.mk.injEq] at he
              exact he.1.symm
            | cons m rest ih =>
              intro n h h1 l he hl
              cases ha : h.node n with
              | none => simp [mergeLoop, get, ha] at he
              | some na =>
                cases hb : h.node m with
                | none => simp [mergeLoop, get, ha, hb] at he
                | some nb =>
                  simp only [mergeLoop, get, ha, hb, Res.ok_bind] at he
                  split at he
                  · exfalso
                    have hshort : ∀ (rest : List Nat) (h : Heap) (n : Nat) (h1 : Heap) (l : List Nat), mergeLoop h n rest = .ok (h1, l) → l.length ≤ rest.length + 1 := by
                      intro rest
                      induction rest with
                      | nil =>
                        intro h n h1 l he
                        simp only [mergeLoop, Res.ok.injEq, Prod.mk.injEq] at he
                        rw [← he.2]; simp
                      | cons m rest ih =>
                        intro h n h1 l he
                        cases ha : h.node n with
                        | none => simp [mergeLoop, get, ha] at he
                        | some na =>
                          cases hb : h.node m with
                          | none => simp [mergeLoop, get, ha, hb] at he
                          | some nb =>
                            simp only [mergeLoop, get, ha, hb, Res.ok_bind] at he
                            split at he
                            · cases hf : free (if nb.last > na.last then set h n { na with last := nb.last } else h) m with
                              | ok h9 =>
                                rw [hf] at he
                                have := ih _ _ _ _ he
                                simp only [List.length_cons]; omega
                              | die => rw [hf] at he; cases he
                              | ub => rw [hf] at he; cases he
                              | hang => rw [hf] at he; cases he
                            · cases hm : mergeLoop h m rest with
                              | ok p =>
                                obtain ⟨h9, l9⟩ := p
                                rw [hm] at he
                                simp only [Res.ok_bind, Res.pure_eq, Res.ok.injEq, Prod.mk.injEq] at he
                                have := ih _ _ _ _ hm
                                rw [← he.2]
                                simp only [List.length_cons]; omega
                              | die => rw [hm] at he; cases he
                              | ub => rw [hm] at he; cases he
                              | hang => rw [hm] at he; cases he
                    cases hf : free (if nb.last > na.last then set h n { na with last := nb.last } else h) m with
                    | ok h9 =>
                      rw [hf] at he
                      have := hshort _ _ _ _ _ he
                      rw [hl] at this
                      simp only [List.length_cons] at this; omega
                    | die => rw [hf] at he; cases he
                    | ub => rw [hf] at he; cases he
                    | hang => rw [hf] at he; cases he
                  · cases hm : mergeLoop h m rest with
                    | ok p =>
                      obtain ⟨h9, l9⟩ := p
                      rw [hm] at he
                      simp only [Res.ok_bind, Res.pure_eq, Res.ok.injEq, Prod.mk.injEq] at he
                      obtain ⟨he1, he2⟩ := he
                      rw [hl] at he2
                      have := ih m h h9 l9 hm (List.cons_inj_right n |>.1 he2)
                      rw [← he1, this]
                    | die => rw [hm] at he; cases he
                    | ub => rw [hm] at he; cases he
                    | hang => rw [hm] at he; cases he
          have hh1 : h1 = h := hsame _ _ _ _ _ m1 hl
          subst hh1
          -- the middle node is a new one
          have hmnew : l.getD (l.length / 2) 0 ∈ addrs A := by
            obtain ⟨a, haA, rfl⟩ : ∃ a ∈ addrs A, rng h1 a = m := by
              rw [← H.ra.rng] at hmA
              exact List.mem_map.1 hmA
            have hal : a ∈ l := by rw [hl, hmemAll]; simp [haA]
            obtain ⟨i, hi, hia⟩ := List.getElem_of_mem hal
            have hc := mid_of_count (key := fun x => (rng h1 x).1) l i hi hNodes.sorted
            rw [hia] at hc
            have hc2 : l.countP (fun x => (rng h1 x).1 < (rng h1 a).1) = (vals T ++ vals A).length / 2 := by
              rw [← hmc, ← hvp.countP_eq, List.countP_map, hl]
              rfl
            have hlen2 : (vals T ++ vals A).length = l.length := by rw [← hvp.length_eq, hl, List.length_map]
            rw [hlen2, hc] at hc2
            rw [getD_get hmid]
            have : l[l.length / 2] = l[i] := by congr 1; exact hc2.symm
            rw [this, hia]
            exact haA
          have hnT : l.getD (l.length / 2) 0 ∉ addrs T := fun hc => (List.nodup_append.1 H.nd).2.2 _ hc _ hmnew rfl
          cases hroot : t.root with
          | none =>
            refine ⟨set h1 (l.getD (l.length / 2) 0) { nn with left := none, right := none }, ?_, ⟨nn, ?_⟩, ?_, ?_, ?_, rfl⟩
            · simp only [place, get, hnn, Res.ok_bind, Res.pure_eq]
            · simp only [set, if_true]
            · intro a ha
              by_cases h9 : a = l.getD (l.length / 2) 0
              · simp [set, h9]
              · simp only [set, if_neg h9]; exact m4 a ha
            · intro a ha
              by_cases h9 : a = l.getD (l.length / 2) 0
              · subst h9
                rw [rng_of hnn]
                simp [rng, set]
              · apply rng_congr
                simp only [set, if_neg h9]
            · intro a ha
              have h9 : a ≠ l.getD (l.length / 2) 0 := fun hc => ha (hc ▸ hmidm)
              simp only [set, if_neg h9]
              right
              exact ⟨by first | rfl | trivial, by rw [← hl]; exact ha⟩
          | some p =>
            have hrt := H.rt
            rw [hroot] at hrt
            obtain ⟨h2, w1, w2, w3, w4, w5⟩ := insertNode_walk (fuel := h1.next + 1) hrt (by have := H.depthT; omega) hnT hnn
            refine ⟨h2, w1, ⟨nn, w2⟩, ?_, ?_, ?_, w5⟩
            · intro a ha
              by_cases h9 : a = l.getD (l.length / 2) 0
              · rw [h9, w2]; simp
              · by_cases h8 : a ∈ addrs T
                · exact (w4 a h8).1
                · rw [w3 a h8 h9]; exact m4 a ha
            · intro a ha
              by_cases h9 : a = l.getD (l.length / 2) 0
              · rw [h9, rng_of w2, rng_of hnn]
              · by_cases h8 : a ∈ addrs T
                · exact (w4 a h8).2
                · exact rng_congr (w3 a h8 h9)
            · intro a ha
              have h9 : a ≠ l.getD (l.length / 2) 0 := fun hc => ha (hc ▸ hmidm)
              have h8 : a ∉ addrs T := fun hc => ha (by rw [hl, hmemAll]; simp [hc])
              exact .inr ⟨w3 a h8 h9, by rw [← hl]; exact ha⟩
      obtain ⟨h2, p1, p2, p3, p4, p5, p6⟩ := hplace
      subst m8
      obtain ⟨h', root, i1, i2, i3, i4⟩ := insertSorted_top (fuel := tl.length) (Nat.le_refl _) hNodes p1 p2 p3 p4
      have hA' : addrs (mk (rng h1) (tl.length + 1) (n :: tl)) = n :: tl := mk_addrs _ _ _ (Nat.le_refl _)
      have hV' : vals (mk (rng h1) (tl.length + 1) (n :: tl)) = mergeR (rng h n) (rest.map (rng h)) := by rw [mk_vals (rng h1) (tl.length + 1) (n :: tl) (Nat.le_refl _), m3]
      refine ⟨h', { t with added := none, count := (n :: tl).length, root := root }, mk (rng h1) (tl.length + 1) (n :: tl), ?_, ?_, ?_, ?_, ?_, ?_⟩
      · unfold rangeSetUpdate
        rw [if_neg h0, e1, e2]
        simp only [Res.ok_bind]
        rw [if_neg (by rw [hlen]; simp), readAll_ok _ (fun a ha => halive a (hperm.mem_iff.1 ha))]
        simp only [Res.ok_bind, hqs, m1, Res.pure_eq]
        rw [show (n :: tl).length = tl.length + 1 from rfl, i1]
        rfl
      · refine ⟨i2, rfl, ?_, ?_, ?_, ?_, by simp [vals], ?_, hhi, ?_, ?_⟩
        · simp only [addrs, List.append_nil, hA']
          exact hNodes.nodup
        · intro a ha
          simp only [addrs, List.append_nil, hA'] at ha
          rw [i4, p6]
          exact H.lt a ((hmemAll a).1 (m2.subset ha))
        · intro a ha
          simp only [addrs, List.append_nil, hA']
          apply Classical.byContradiction
          intro hc
          rw [i3 a hc] at ha
          rcases p5 a hc with h9 | ⟨h9, h8⟩
          · exact ha h9
          · rw [h9] at ha
            exact h8 ((hmemAll a).2 (H.only a ha))
        · rw [hV']; exact hspaced.1
        · intro r hr
          simp only [vals, List.append_nil, hV'] at hr
          refine ⟨mergeR_low _ _ t.lowest (hlimN n (by simp)).1 ?_ r hr, mergeR_bound _ _ t.highest (hlimN n (by simp)).2 ?_ r hr⟩
          · intro s hs
            obtain ⟨a, ha, rfl⟩ := List.mem_map.1 hs
            exact (hlimN a (by simp [ha])).1
          · intro s hs
            obtain ⟨a, ha, rfl⟩ := List.mem_map.1 hs
            exact (hlimN a (by simp [ha])).2
        · simp only [addrs, List.append_nil, hA']
        · rw [hA']
          exact log2_depth _ _ _
      · intro v
        rw [hV', hcovers v]
        exact covers_perm hvp v
      · rfl
      · rfl
      · have h9 := m2.length_le
        rw [hp2.length_eq, ← hcnt] at h9
        exact h9

theorem destroy_ok {h : Heap} {t : RangeSet} {T A : Tree} (H : Inv h t T A) : ∃ h', rangeSetDestroy h t = .ok h' ∧ ∀ a, h'.node a = none := by
  have hnd := List.nodup_append.1 H.nd
  obtain ⟨h1, e1, x1, f1⟩ := H.rt.treeFree (fuel := h.next + 1) (by have := H.depthT; omega) hnd.1
  have ra' : Rep h1 t.added A := H.ra.frame (fun a ha => by rw [f1, if_neg (fun hc => hnd.2.2 a hc a ha rfl)])
  obtain ⟨h2, e2, x2, f2⟩ := ra'.treeFree (fuel := h1.next + 1) (by rw [x1]; have := H.depthA; omega) hnd.2.1
  refine ⟨h2, ?_, ?_⟩
  · unfold rangeSetDestroy
    rw [e1]
    exact e2
  · intro a
    rw [f2, f1]
    by_cases h9 : a ∈ addrs A
    · rw [if_pos h9]
    · rw [if_neg h9]
      by_cases h8 : a ∈ addrs T
      · rw [if_pos h8]
      · rw [if_neg h8]
        apply Classical.byContradiction
        intro hc
        have := H.only a hc
        simp [h8, h9] at this

end Nfqlb.RS
