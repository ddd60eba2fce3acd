import Verif.Proof.RangeTree

/-! `insertSorted` builds the balanced tree, `mergeLoop` merges. -/

set_option autoImplicit false

namespace Nfqlb.RS

open Nfqlb.Spec.RS Tree

theorem alive_iff {h : Heap} {a : Nat} (ha : h.node a ≠ none) : ∃ n, h.node a = some n := by
  cases hn : h.node a with
  | none => exact absurd hn ha
  | some n => exact ⟨n, rfl⟩

theorem rng_of {h : Heap} {a : Nat} {n : Node} (hn : h.node a = some n) : rng h a = (n.first, n.last) := by
  unfold rng; rw [hn]

theorem rng_congr {h h' : Heap} {a : Nat} (hn : h'.node a = h.node a) : rng h' a = rng h a := by
  unfold rng; rw [hn]

/-- Nodes for `insertSorted`: in use, distinct and sorted. -/
structure Nodes (h : Heap) (l : List Nat) : Prop where
  alive : ∀ a ∈ l, h.node a ≠ none
  nodup : l.Nodup
  sorted : l.Pairwise (fun a b => (rng h a).1 < (rng h b).1)

theorem Nodes.sub {h : Heap} {l m : List Nat} (H : Nodes h l) (hs : m.Sublist l) : Nodes h m :=
  ⟨fun a ha => H.alive a (hs.subset ha), H.nodup.sublist hs, H.sorted.sublist hs⟩

theorem Nodes.congr {h h' : Heap} {l : List Nat} (H : Nodes h l) (h1 : ∀ a ∈ l, h'.node a ≠ none) (h2 : ∀ a ∈ l, rng h' a = rng h a) : Nodes h' l := by
  refine ⟨h1, H.nodup, ?_⟩
  refine List.Pairwise.imp_of_mem ?_ H.sorted
  intro a b ha hb hab
  rw [h2 a ha, h2 b hb]
  exact hab

/-- The claim for one call of `insertSorted` below a node. -/
def BelowOk (fuel : Nat) : Prop := ∀ (h : Heap) (p : Nat) (np : Node) (l : List Nat), l.length ≤ fuel → Nodes h l → p ∉ l → h.node p = some np →
  (np.left = none → (∀ a ∈ l, (rng h a).1 < np.first) → ∃ h' root, insertSorted fuel h (some p) l = .ok (h', root) ∧ Rep h' root (mk (rng h) fuel l) ∧
    h'.node p = some { np with left := root } ∧ (∀ a, a ∉ l → a ≠ p → h'.node a = h.node a) ∧ h'.next = h.next) ∧
  (np.right = none → (∀ a ∈ l, np.first ≤ (rng h a).1) → ∃ h' root, insertSorted fuel h (some p) l = .ok (h', root) ∧ Rep h' root (mk (rng h) fuel l) ∧
    h'.node p = some { np with right := root } ∧ (∀ a, a ∉ l → a ≠ p → h'.node a = h.node a) ∧ h'.next = h.next)

theorem Rep.rngAt {h : Heap} {t : Tree} {p : Option Nat} {f : Nat → Nat × Nat} {fuel : Nat} {l : List Nat} (ht : t = mk f fuel l) (hl : l.length ≤ fuel) (hr : Rep h p t) :
    ∀ a ∈ l, RS.rng h a = f a := by
  have := hr.rng
  subst ht
  rw [mk_addrs f fuel l hl, mk_vals f fuel l hl] at this
  exact List.map_inj_left.1 this

/-- After the middle node is placed, the rest of `insertSorted` builds both subtrees. -/
theorem grow {fuel : Nat} (IH : BelowOk fuel) {h0 h : Heap} {x : Nat} {xs : List Nat} (hl : (x :: xs).length ≤ fuel + 1) (H : Nodes h0 (x :: xs)) {n : Nat}
    (hn : n = (x :: xs).getD ((x :: xs).length / 2) 0) {nn : Node} (h1 : h.node n = some { nn with left := none, right := none }) (hnn : rng h0 n = (nn.first, nn.last))
    (h2 : ∀ a ∈ x :: xs, h.node a ≠ none) (h3 : ∀ a ∈ x :: xs, rng h a = rng h0 a) :
    ∃ h', (do
        let (h, _) ← insertSorted fuel h (some n) ((x :: xs).take ((x :: xs).length / 2))
        let (h, _) ← insertSorted fuel h (some n) ((x :: xs).drop ((x :: xs).length / 2 + 1))
        return (h, some n) : Res (Heap × Option Nat)) = .ok (h', some n) ∧ Rep h' (some n) (mk (rng h0) (fuel + 1) (x :: xs)) ∧
      (∀ a, a ∉ x :: xs → h'.node a = h.node a) ∧ h'.next = h.next := by
  have hsp := split_mid (x :: xs) (by simp)
  rw [← hn] at hsp
  generalize hL : (x :: xs).take ((x :: xs).length / 2) = L at *
  generalize hR : (x :: xs).drop ((x :: xs).length / 2 + 1) = R at *
  have hLlen : L.length ≤ fuel := by rw [← hL, List.length_take]; simp only [List.length_cons] at hl ⊢; omega
  have hRlen : R.length ≤ fuel := by rw [← hR, List.length_drop]; simp only [List.length_cons] at hl ⊢; omega
  have hnd := H.nodup
  rw [hsp] at hnd
  obtain ⟨n1, n2, n3, n4, n5⟩ := nodup_parts hnd
  have hso := H.sorted
  rw [hsp, List.pairwise_append, List.pairwise_cons] at hso
  obtain ⟨s1, ⟨s2, s3⟩, s4⟩ := hso
  have hmL : ∀ a ∈ L, a ∈ x :: xs := fun a ha => by rw [hsp]; simp [ha]
  have hmR : ∀ a ∈ R, a ∈ x :: xs := fun a ha => by rw [hsp]; simp [ha]
  have HL : Nodes h L := (H.sub (m := L) (by rw [hsp]; exact List.sublist_append_left _ _)).congr (fun a ha => h2 a (hmL a ha)) (fun a ha => h3 a (hmL a ha))
  have HR : Nodes h R := (H.sub (m := R) (by rw [hsp]; exact (List.sublist_cons_self _ _).trans (List.sublist_append_right _ _))).congr
    (fun a ha => h2 a (hmR a ha)) (fun a ha => h3 a (hmR a ha))
  obtain ⟨ha, ra, e1, r1, p1, f1, x1⟩ := (IH h n _ L hLlen HL n3 h1).1 rfl (by
    intro a hm
    rw [h3 a (hmL a hm)]
    have := s4 a hm n (by simp)
    rw [hnn] at this
    exact this)
  have HR' : Nodes ha R := HR.congr (fun a hm => by rw [f1 a (fun hc => n5 a hc hm) (by rintro rfl; exact n4 hm)]; exact HR.alive a hm)
    (fun a hm => rng_congr (f1 a (fun hc => n5 a hc hm) (by rintro rfl; exact n4 hm)))
  obtain ⟨hb, rb, e2, r2, p2, f2, x2⟩ := (IH ha n _ R hRlen HR' n4 p1).2 rfl (by
    intro a hm
    rw [rng_congr (f1 a (fun hc => n5 a hc hm) (by rintro rfl; exact n4 hm)), h3 a (hmR a hm)]
    have := s2 a hm
    rw [hnn] at this
    exact Nat.le_of_lt this)
  refine ⟨hb, ?_, ?_, ?_, ?_⟩
  · simp only [e1, Res.ok_bind, e2, Res.pure_eq]
  · simp only [mk]
    rw [← hn]
    refine ⟨rfl, ra, rb, ?_, ?_, ?_⟩
    · rw [p2, hnn]
    · rw [hL]
      have e : mk (rng h0) fuel L = mk (rng h) fuel L := mk_congr fuel L hLlen (fun a ha => (h3 a (hmL a ha)).symm)
      rw [e]
      refine r1.frame ?_
      intro a hm
      rw [mk_addrs _ _ _ hLlen] at hm
      exact f2 a (n5 a hm) (by rintro rfl; exact n3 hm)
    · rw [hR]
      have e : mk (rng h0) fuel R = mk (rng ha) fuel R := mk_congr fuel R hRlen (fun a hm => by
        rw [rng_congr (f1 a (fun hc => n5 a hc hm) (by rintro rfl; exact n4 hm)), h3 a (hmR a hm)])
      rw [e]
      exact r2
  · intro a hm
    rw [hsp] at hm
    simp only [List.mem_append, List.mem_cons, not_or] at hm
    rw [f2 a hm.2.2 hm.2.1, f1 a hm.1 hm.2.1]
  · rw [x2, x1]

theorem below_ok : ∀ fuel, BelowOk fuel
  | 0 => by
    intro h p np l hl H hp hnp
    have : l = [] := List.length_eq_zero_iff.1 (by omega)
    subst this
    refine ⟨fun h1 h2 => ⟨h, none, rfl, rfl, ?_, fun _ _ _ => rfl, rfl⟩, fun h1 h2 => ⟨h, none, rfl, rfl, ?_, fun _ _ _ => rfl, rfl⟩⟩
    · rw [hnp]; cases np; simp only at h1; subst h1; rfl
    · rw [hnp]; cases np; simp only at h1; subst h1; rfl
  | fuel + 1 => by
    intro h p np l hl H hp hnp
    cases l with
    | nil =>
      refine ⟨fun h1 h2 => ⟨h, none, rfl, rfl, ?_, fun _ _ _ => rfl, rfl⟩, fun h1 h2 => ⟨h, none, rfl, rfl, ?_, fun _ _ _ => rfl, rfl⟩⟩
      · rw [hnp]; cases np; simp only at h1; subst h1; rfl
      · rw [hnp]; cases np; simp only at h1; subst h1; rfl
    | cons x xs =>
      have hmid : (x :: xs).length / 2 < (x :: xs).length := by simp only [List.length_cons]; omega
      obtain ⟨n, hn⟩ : ∃ n, n = (x :: xs).getD ((x :: xs).length / 2) 0 := ⟨_, rfl⟩
      have hnm : n ∈ x :: xs := by rw [hn, getD_get hmid]; exact List.getElem_mem _
      obtain ⟨nn, hnn⟩ := alive_iff (H.alive n hnm)
      have hnp' : n ≠ p := by rintro rfl; exact hp hnm
      constructor
      · intro hleft hlt
        have hlt' : nn.first < np.first := by have := hlt n hnm; rw [rng_of hnn] at this; exact this
        let h1 : Heap := set (set h n { nn with left := none, right := none }) p { np with left := some n }
        have hplace : insertNode (h.next + 1) h p n = .ok h1 := by
          simp only [insertNode, get, hnn, hnp, Res.ok_bind, if_pos hlt', hleft, set, if_neg (Ne.symm hnp'), Res.pure_eq]
          rfl
        have hn1 : ∀ a, a ≠ n → a ≠ p → h1.node a = h.node a := by
          intro a h9 h8
          simp only [h1, set, if_neg h9, if_neg h8]
        have hn2 : h1.node n = some { nn with left := none, right := none } := by simp only [h1, set, if_neg hnp', if_true]
        have hn3 : h1.node p = some { np with left := some n } := by simp only [h1, set, if_true]
        obtain ⟨h', g1, g2, g3, g4⟩ := grow (below_ok fuel) (h0 := h) (h := h1) hl H hn (nn := nn) hn2 (rng_of hnn)
          (by
            intro a ha
            by_cases han : a = n
            · rw [han, hn2]; simp
            · rw [hn1 a han (by rintro rfl; exact hp ha)]; exact H.alive a ha)
          (by
            intro a ha
            by_cases han : a = n
            · rw [han, rng_of hn2, rng_of hnn]
            · exact rng_congr (hn1 a han (by rintro rfl; exact hp ha)))
        refine ⟨h', some n, ?_, g2, ?_, ?_, ?_⟩
        · rw [← g1]
          simp only [insertSorted, place]
          rw [← hn, hplace]
          rfl
        · rw [g3 p hp, hn3]
        · intro a ha hap
          rw [g3 a ha, hn1 a (by rintro rfl; exact ha hnm) hap]
        · rw [g4]; rfl
      · intro hright hle
        have hlt' : ¬ nn.first < np.first := by have := hle n hnm; rw [rng_of hnn] at this; simp only at this; omega
        let h1 : Heap := set (set h n { nn with left := none, right := none }) p { np with right := some n }
        have hplace : insertNode (h.next + 1) h p n = .ok h1 := by
          simp only [insertNode, get, hnn, hnp, Res.ok_bind, if_neg hlt', hright, set, if_neg (Ne.symm hnp'), Res.pure_eq]
          rfl
        have hn1 : ∀ a, a ≠ n → a ≠ p → h1.node a = h.node a := by
          intro a h9 h8
          simp only [h1, set, if_neg h9, if_neg h8]
        have hn2 : h1.node n = some { nn with left := none, right := none } := by simp only [h1, set, if_neg hnp', if_true]
        have hn3 : h1.node p = some { np with right := some n } := by simp only [h1, set, if_true]
        obtain ⟨h', g1, g2, g3, g4⟩ := grow (below_ok fuel) (h0 := h) (h := h1) hl H hn (nn := nn) hn2 (rng_of hnn)
          (by
            intro a ha
            by_cases han : a = n
            · rw [han, hn2]; simp
            · rw [hn1 a han (by rintro rfl; exact hp ha)]; exact H.alive a ha)
          (by
            intro a ha
            by_cases han : a = n
            · rw [han, rng_of hn2, rng_of hnn]
            · exact rng_congr (hn1 a han (by rintro rfl; exact hp ha)))
        refine ⟨h', some n, ?_, g2, ?_, ?_, ?_⟩
        · rw [← g1]
          simp only [insertSorted, place]
          rw [← hn, hplace]
          rfl
        · rw [g3 p hp, hn3]
        · intro a ha hap
          rw [g3 a ha, hn1 a (by rintro rfl; exact ha hnm) hap]
        · rw [g4]; rfl

/-- The whole call, when the middle node can be placed without changing the ranges of the nodes. -/
theorem insertSorted_top {fuel : Nat} {h : Heap} {parent : Option Nat} {x : Nat} {xs : List Nat} (hl : (x :: xs).length ≤ fuel + 1) (H : Nodes h (x :: xs)) {h1 : Heap}
    (hp : place h parent ((x :: xs).getD ((x :: xs).length / 2) 0) = .ok h1)
    (hc : ∃ nn : Node, h1.node ((x :: xs).getD ((x :: xs).length / 2) 0) = some { nn with left := none, right := none })
    (h2 : ∀ a ∈ x :: xs, h1.node a ≠ none) (h3 : ∀ a ∈ x :: xs, rng h1 a = rng h a) :
    ∃ h' root, insertSorted (fuel + 1) h parent (x :: xs) = .ok (h', root) ∧ Rep h' root (mk (rng h) (fuel + 1) (x :: xs)) ∧
      (∀ a, a ∉ x :: xs → h'.node a = h1.node a) ∧ h'.next = h1.next := by
  have hmid : (x :: xs).length / 2 < (x :: xs).length := by simp only [List.length_cons]; omega
  obtain ⟨n, hn⟩ : ∃ n, n = (x :: xs).getD ((x :: xs).length / 2) 0 := ⟨_, rfl⟩
  have hnm : n ∈ x :: xs := by rw [hn, getD_get hmid]; exact List.getElem_mem _
  rw [← hn] at hp hc
  obtain ⟨nn, hc⟩ := hc
  obtain ⟨h', g1, g2, g3, g4⟩ := grow (below_ok fuel) (h0 := h) (h := h1) hl H hn (nn := nn) hc (by rw [← h3 n hnm, rng_of hc]) h2 h3
  refine ⟨h', some n, ?_, g2, g3, g4⟩
  rw [← g1]
  simp only [insertSorted]
  rw [← hn, hp]
  rfl

/-- Placing a new node below an existing tree only changes links. -/
theorem insertNode_walk {n : Nat} {nn : Node} : ∀ {t : Tree} {h : Heap} {p fuel : Nat}, Rep h (some p) t → depth t ≤ fuel → n ∉ addrs t → h.node n = some nn →
    ∃ h', insertNode fuel h p n = .ok h' ∧ h'.node n = some { nn with left := none, right := none } ∧ (∀ a, a ∉ addrs t → a ≠ n → h'.node a = h.node a) ∧
      (∀ a ∈ addrs t, h'.node a ≠ none ∧ RS.rng h' a = RS.rng h a) ∧ h'.next = h.next
  | .leaf, h, p, fuel, hr, _, _, _ => by simp [Rep] at hr
  | .node b r tl tr, h, p, fuel, ⟨hp, pl, pr, hn, h1, h2⟩, hd, hnt, hnn => by
    simp only [Option.some.injEq] at hp
    subst hp
    simp only [depth] at hd
    have hnb : n ≠ p := by rintro rfl; exact hnt (by simp [addrs])
    have hal := (show Rep h (some p) (.node p r tl tr) from ⟨rfl, pl, pr, hn, h1, h2⟩).alive
    cases fuel with
    | zero => omega
    | succ fuel =>
      by_cases hlt : nn.first < r.1
      · cases hpl : pl with
        | none =>
          subst hpl
          refine ⟨set (set h n { nn with left := none, right := none }) p ⟨r.1, r.2, some n, pr⟩, ?_, ?_, ?_, ?_, rfl⟩
          · simp only [insertNode, get, hnn, hn, Res.ok_bind, if_pos hlt, set, if_neg (Ne.symm hnb), Res.pure_eq]
          · simp only [set, if_neg hnb, if_true]
          · intro a ha han
            have : a ≠ p := by rintro rfl; exact ha (by simp [addrs])
            simp only [set, if_neg this, if_neg han]
          · intro a ha
            have han : a ≠ n := by rintro rfl; exact hnt ha
            by_cases hap : a = p
            · subst hap
              constructor
              · simp [set]
              · rw [rng_of hn]; simp [RS.rng, set]
            · have : (set (set h n { nn with left := none, right := none }) p ⟨r.1, r.2, some n, pr⟩).node a = h.node a := by simp only [set, if_neg hap, if_neg han]
              exact ⟨by rw [this]; exact hal a ha, rng_congr this⟩
        | some l =>
          subst hpl
          obtain ⟨h', g1, g2, g3, g4, g5⟩ := insertNode_walk (fuel := fuel) h1 (by omega) (fun hc => hnt (by simp [addrs, hc])) hnn
          refine ⟨h', ?_, g2, ?_, ?_, g5⟩
          · simp only [insertNode, get, hnn, hn, Res.ok_bind, if_pos hlt]
            exact g1
          · intro a ha han
            exact g3 a (fun hc => ha (by simp [addrs, hc])) han
          · intro a ha
            have han : a ≠ n := by rintro rfl; exact hnt ha
            by_cases hal' : a ∈ addrs tl
            · exact g4 a hal'
            · have := g3 a hal' han
              exact ⟨by rw [this]; exact hal a ha, rng_congr this⟩
      · cases hpr : pr with
        | none =>
          subst hpr
          refine ⟨set (set h n { nn with left := none, right := none }) p ⟨r.1, r.2, pl, some n⟩, ?_, ?_, ?_, ?_, rfl⟩
          · simp only [insertNode, get, hnn, hn, Res.ok_bind, if_neg hlt, set, if_neg (Ne.symm hnb), Res.pure_eq]
          · simp only [set, if_neg hnb, if_true]
          · intro a ha han
            have : a ≠ p := by rintro rfl; exact ha (by simp [addrs])
            simp only [set, if_neg this, if_neg han]
          · intro a ha
            have han : a ≠ n := by rintro rfl; exact hnt ha
            by_cases hap : a = p
            · subst hap
              constructor
              · simp [set]
              · rw [rng_of hn]; simp [RS.rng, set]
            · have : (set (set h n { nn with left := none, right := none }) p ⟨r.1, r.2, pl, some n⟩).node a = h.node a := by simp only [set, if_neg hap, if_neg han]
              exact ⟨by rw [this]; exact hal a ha, rng_congr this⟩
        | some l =>
          subst hpr
          obtain ⟨h', g1, g2, g3, g4, g5⟩ := insertNode_walk (fuel := fuel) h2 (by omega) (fun hc => hnt (by simp [addrs, hc])) hnn
          refine ⟨h', ?_, g2, ?_, ?_, g5⟩
          · simp only [insertNode, get, hnn, hn, Res.ok_bind, if_neg hlt]
            exact g1
          · intro a ha han
            exact g3 a (fun hc => ha (by simp [addrs, hc])) han
          · intro a ha
            have han : a ≠ n := by rintro rfl; exact hnt ha
            by_cases hal' : a ∈ addrs tr
            · exact g4 a hal'
            · have := g3 a hal' han
              exact ⟨by rw [this]; exact hal a ha, rng_congr this⟩

/-! ### Merging -/

theorem mergeLoop_spec : ∀ (rest : List Nat) (h : Heap) (n : Nat), (∀ a ∈ n :: rest, h.node a ≠ none) → (n :: rest).Nodup → (∀ a ∈ n :: rest, (rng h a).2 ≤ 4294967295) →
    (∀ a ∈ n :: rest, (rng h a).1 ≤ (rng h a).2) →
    ∃ h' l, mergeLoop h n rest = .ok (h', l) ∧ l.Sublist (n :: rest) ∧ l.map (rng h') = mergeR (rng h n) (rest.map (rng h)) ∧ (∀ a ∈ l, h'.node a ≠ none) ∧
      (∀ a ∈ n :: rest, a ∉ l → h'.node a = none) ∧ (∀ a, a ∉ n :: rest → h'.node a = h.node a) ∧ h'.next = h.next ∧ (∃ tl, l = n :: tl)
  | [], h, n, hal, hnd, hb, hv => by
    refine ⟨h, [n], rfl, List.Sublist.refl _, rfl, hal, ?_, fun _ _ => rfl, rfl, [], rfl⟩
    intro a h1 h2; exact absurd h1 h2
  | m :: rest, h, n, hal, hnd, hb, hv => by
    obtain ⟨nn, hn⟩ := alive_iff (hal n (by simp))
    obtain ⟨nm, hm⟩ := alive_iff (hal m (by simp))
    have hnm : n ≠ m := by rintro rfl; simp at hnd
    have hbn := hb n (by simp)
    rw [rng_of hn] at hbn
    have hvn := hv n (by simp)
    rw [rng_of hn] at hvn
    have hvm := hv m (by simp)
    rw [rng_of hm] at hvm
    have hbm := hb m (by simp)
    rw [rng_of hm] at hbm
    simp only at hbn hvn hvm hbm
    rw [List.nodup_cons, List.nodup_cons] at hnd
    obtain ⟨d1, d2, d3⟩ := hnd
    have dn : n ∉ rest := fun hc => d1 (by simp [hc])
    have hcond : (nn.last = 4294967295 ∨ u32 (nn.last + 1) ≥ nm.first) ↔ nm.first ≤ nn.last + 1 := by
      unfold u32
      constructor
      · rintro (h9 | h9)
        · omega
        · have := Nat.mod_le (nn.last + 1) 4294967296
          omega
      · intro h9
        by_cases h8 : nn.last = 4294967295
        · exact .inl h8
        · right
          rw [Nat.mod_eq_of_lt (by omega)]
          exact h9
    by_cases hc : nm.first ≤ nn.last + 1
    · -- merge
      let h1 : Heap := if nm.last > nn.last then set h n { nn with last := nm.last } else h
      have h1m : h1.node m = some nm := by
        simp only [h1]
        split
        · simp only [set, if_neg (Ne.symm hnm)]; exact hm
        · exact hm
      have h1n : h1.node n = some { nn with last := max nn.last nm.last } := by
        simp only [h1]
        split
        · simp only [set, if_true]
          congr 2
          omega
        · rw [hn]
          congr 1
          cases nn
          simp only at *
          congr 1
          omega
      have h1o : ∀ a, a ≠ n → h1.node a = h.node a := by
        intro a ha
        simp only [h1]
        split
        · simp only [set, if_neg ha]
        · rfl
      have h1x : h1.next = h.next := by simp only [h1]; split <;> rfl
      let h2 : Heap := { h1 with node := fun j => if j = m then none else h1.node j }
      have hfree : free h1 m = .ok h2 := by simp only [free, get, h1m, Res.ok_bind, Res.pure_eq]; rfl
      have h2o : ∀ a, a ≠ m → a ≠ n → h2.node a = h.node a := by
        intro a h9 h8
        simp only [h2, if_neg h9]
        exact h1o a h8
      have h2n : h2.node n = some { nn with last := max nn.last nm.last } := by simp only [h2, if_neg hnm]; exact h1n
      have hrest : ∀ a ∈ rest, h2.node a = h.node a := fun a ha => h2o a (by rintro rfl; exact d2 ha) (by rintro rfl; exact dn ha)
      obtain ⟨h', l, e1, e2, e3, e4, e5, e6, e7, e8⟩ := mergeLoop_spec rest h2 n
        (by
          intro a ha
          rcases List.mem_cons.1 ha with rfl | ha
          · rw [h2n]; simp
          · rw [hrest a ha]; exact hal a (by simp [ha]))
        (by rw [List.nodup_cons]; exact ⟨dn, d3⟩)
        (by
          intro a ha
          rcases List.mem_cons.1 ha with rfl | ha
          · rw [rng_of h2n]; simp only; omega
          · rw [rng_congr (hrest a ha)]; exact hb a (by simp [ha]))
        (by
          intro a ha
          rcases List.mem_cons.1 ha with rfl | ha
          · rw [rng_of h2n]; simp only; omega
          · rw [rng_congr (hrest a ha)]; exact hv a (by simp [ha]))
      refine ⟨h', l, ?_, ?_, ?_, e4, ?_, ?_, ?_, e8⟩
      · simp only [mergeLoop, get, hn, hm, Res.ok_bind]
        rw [if_pos (hcond.2 hc)]
        have : free (if nm.last > nn.last then set h n { nn with last := nm.last } else h) m = .ok h2 := hfree
        rw [this]
        simp only [Res.ok_bind]
        exact e1
      · exact e2.trans ((List.sublist_cons_self m rest).cons_cons n)
      · rw [e3, rng_of h2n, rng_of hn, List.map_cons, rng_of hm]
        simp only [mergeR]
        rw [if_pos hc]
        congr 1
        exact List.map_inj_left.2 (fun a ha => rng_congr (hrest a ha))
      · intro a ha hna
        rcases List.mem_cons.1 ha with rfl | ha
        · exact e5 a (by simp) hna
        · rcases List.mem_cons.1 ha with rfl | ha
          · rw [e6 a (by simp [Ne.symm hnm, d2])]
            simp only [h2, if_true]
          · exact e5 a (by simp [ha]) hna
      · intro a ha
        simp only [List.mem_cons, not_or] at ha
        rw [e6 a (by simp [ha]), h2o a ha.2.1 ha.1]
      · rw [e7]; exact h1x
    · -- keep
      obtain ⟨h', l, e1, e2, e3, e4, e5, e6, e7, e8⟩ := mergeLoop_spec rest h m (fun a ha => hal a (by simp only [List.mem_cons] at ha ⊢; exact .inr ha))
        (by rw [List.nodup_cons]; exact ⟨d2, d3⟩) (fun a ha => hb a (List.mem_cons_of_mem _ ha)) (fun a ha => hv a (List.mem_cons_of_mem _ ha))
      refine ⟨h', n :: l, ?_, e2.cons_cons n, ?_, ?_, ?_, ?_, e7, l, rfl⟩
      · simp only [mergeLoop, get, hn, hm, Res.ok_bind]
        rw [if_neg (fun h9 => hc (hcond.1 h9)), e1]
        rfl
      · have hn' : h'.node n = h.node n := e6 n (by simpa using d1)
        rw [List.map_cons, e3, rng_congr hn', rng_of hn, List.map_cons, rng_of hm]
        simp only [mergeR]
        rw [if_neg hc]
      · intro a ha
        rcases List.mem_cons.1 ha with rfl | ha
        · rw [e6 a (by simpa using d1), hn]; simp
        · exact e4 a ha
      · intro a ha hna
        simp only [List.mem_cons, not_or] at hna
        rcases List.mem_cons.1 ha with rfl | ha
        · exact absurd rfl hna.1
        · exact e5 a ha hna.2
      · intro a ha
        simp only [List.mem_cons, not_or] at ha
        exact e6 a (by simp [ha])

end Nfqlb.RS
