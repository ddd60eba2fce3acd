import Verif.Proof.RangePure
import Mathlib.Data.List.Lattice
import Mathlib.Data.Finset.Card
import Mathlib.Data.Finset.Range

/-! Trees in the heap. -/

set_option autoImplicit false

namespace Nfqlb.RS

open Nfqlb.Spec.RS

/-- A tree with the addresses of its nodes. -/
inductive Tree where
  | leaf
  | node (a : Nat) (r : Nat × Nat) (tl tr : Tree)

namespace Tree

def addrs : Tree → List Nat
  | leaf => []
  | node a _ tl tr => addrs tl ++ a :: addrs tr

def vals : Tree → List (Nat × Nat)
  | leaf => []
  | node _ r tl tr => vals tl ++ r :: vals tr

def depth : Tree → Nat
  | leaf => 0
  | node _ _ tl tr => max (depth tl) (depth tr) + 1

def post : Tree → List Nat
  | leaf => []
  | node a _ tl tr => post tl ++ post tr ++ [a]

theorem depth_le : ∀ t : Tree, depth t ≤ (addrs t).length
  | leaf => Nat.le_refl _
  | node a r tl tr => by
    have h1 := depth_le tl
    have h2 := depth_le tr
    simp only [depth, addrs, List.length_append, List.length_cons]
    omega

theorem post_perm : ∀ t : Tree, (post t).Perm (addrs t)
  | leaf => .refl _
  | node a r tl tr => by
    have h1 := post_perm tl
    have h2 := post_perm tr
    rw [List.perm_iff_count] at *
    intro x
    have h1 := h1 x
    have h2 := h2 x
    simp only [post, addrs, List.count_append, List.count_cons, List.count_nil]
    omega

theorem vals_length : ∀ t : Tree, (vals t).length = (addrs t).length
  | leaf => rfl
  | node a r tl tr => by
    simp only [vals, addrs, List.length_append, List.length_cons, vals_length tl, vals_length tr]

end Tree

open Tree

/-- The tree is in the heap. -/
def Rep (h : Heap) : Option Nat → Tree → Prop
  | p, .leaf => p = none
  | p, .node a r tl tr => p = some a ∧ ∃ pl pr, h.node a = some ⟨r.1, r.2, pl, pr⟩ ∧ Rep h pl tl ∧ Rep h pr tr

/-- The range in a node. -/
def rng (h : Heap) (a : Nat) : Nat × Nat :=
  match h.node a with
  | some n => (n.first, n.last)
  | none => (0, 0)

theorem Rep.frame {h h' : Heap} : ∀ {t : Tree} {p : Option Nat}, (∀ a ∈ addrs t, h'.node a = h.node a) → Rep h p t → Rep h' p t
  | .leaf, _, _, hr => hr
  | .node a r tl tr, p, hf, ⟨hp, pl, pr, hn, h1, h2⟩ => by
    refine ⟨hp, pl, pr, ?_, h1.frame ?_, h2.frame ?_⟩
    · rw [hf a (by simp [addrs])]; exact hn
    · intro x hx; exact hf x (by simp [addrs, hx])
    · intro x hx; exact hf x (by simp [addrs, hx])

theorem Rep.alive {h : Heap} : ∀ {t : Tree} {p : Option Nat}, Rep h p t → ∀ a ∈ addrs t, h.node a ≠ none
  | .leaf, _, _, a, ha => by cases ha
  | .node b r tl tr, p, ⟨hp, pl, pr, hn, h1, h2⟩, a, ha => by
    simp only [addrs, List.mem_append, List.mem_cons] at ha
    rcases ha with ha | rfl | ha
    · exact h1.alive a ha
    · rw [hn]; simp
    · exact h2.alive a ha

theorem Rep.rng {h : Heap} : ∀ {t : Tree} {p : Option Nat}, Rep h p t → (addrs t).map (rng h) = vals t
  | .leaf, _, _ => rfl
  | .node b r tl tr, p, ⟨hp, pl, pr, hn, h1, h2⟩ => by
    simp only [addrs, vals, List.map_append, List.map_cons, h1.rng, h2.rng]
    congr 2
    unfold RS.rng
    rw [hn]

theorem Rep.store {h : Heap} : ∀ {t : Tree} {p : Option Nat} {fuel : Nat}, Rep h p t → depth t ≤ fuel → storeNodes h fuel p = .ok (post t)
  | .leaf, p, fuel, hr, _ => by
    simp only [Rep] at hr
    subst hr
    cases fuel <;> rfl
  | .node b r tl tr, p, fuel, ⟨hp, pl, pr, hn, h1, h2⟩, hd => by
    subst hp
    simp only [depth] at hd
    cases fuel with
    | zero => omega
    | succ fuel =>
      have e1 := h1.store (fuel := fuel) (by omega)
      have e2 := h2.store (fuel := fuel) (by omega)
      simp only [storeNodes, get, hn, Res.ok_bind, e1, e2, Res.pure_eq, post]

theorem Rep.inorder {h : Heap} : ∀ {t : Tree} {p : Option Nat} {fuel : Nat}, Rep h p t → depth t ≤ fuel → inorder h fuel p = vals t
  | .leaf, p, fuel, hr, _ => by
    simp only [Rep] at hr
    subst hr
    cases fuel <;> rfl
  | .node b r tl tr, p, fuel, ⟨hp, pl, pr, hn, h1, h2⟩, hd => by
    subst hp
    simp only [depth] at hd
    cases fuel with
    | zero => omega
    | succ fuel =>
      have e1 := h1.inorder (fuel := fuel) (by omega)
      have e2 := h2.inorder (fuel := fuel) (by omega)
      simp only [Spec.RS.inorder, hn, e1, e2, vals]
      simp

theorem Rep.visits {h : Heap} (v : Nat) : ∀ {t : Tree} {p : Option Nat} {fuel : Nat}, Rep h p t → visits h v fuel p ≤ depth t
  | .leaf, p, fuel, hr => by
    simp only [Rep] at hr
    subst hr
    cases fuel <;> simp [Spec.RS.visits]
  | .node b r tl tr, p, fuel, ⟨hp, pl, pr, hn, h1, h2⟩ => by
    subst hp
    cases fuel with
    | zero => simp [Spec.RS.visits]
    | succ fuel =>
      have e1 := h1.visits v (fuel := fuel)
      have e2 := h2.visits v (fuel := fuel)
      simp only [Spec.RS.visits, hn, depth]
      split
      · omega
      · split <;> omega

theorem covers_append (l m : List (Nat × Nat)) (v : Nat) : Covers (l ++ m) v ↔ Covers l v ∨ Covers m v := by
  simp only [Covers, List.mem_append]
  constructor
  · rintro ⟨r, h | h, hv⟩
    · exact .inl ⟨r, h, hv⟩
    · exact .inr ⟨r, h, hv⟩
  · rintro (⟨r, h, hv⟩ | ⟨r, h, hv⟩)
    · exact ⟨r, .inl h, hv⟩
    · exact ⟨r, .inr h, hv⟩

theorem Rep.isIn {h : Heap} (v : Nat) : ∀ {t : Tree} {p : Option Nat} {fuel : Nat}, Rep h p t → depth t ≤ fuel → Spaced (vals t) → isInTree h v fuel p = .ok (decide (Covers (vals t) v))
  | .leaf, p, fuel, hr, _, _ => by
    simp only [Rep] at hr
    subst hr
    cases fuel <;> simp [isInTree, vals, Covers]
  | .node b r tl tr, p, fuel, ⟨hp, pl, pr, hn, h1, h2⟩, hd, hs => by
    subst hp
    simp only [depth] at hd
    simp only [vals] at hs
    obtain ⟨hv, hpw⟩ := hs
    rw [List.pairwise_append] at hpw
    obtain ⟨p1, p2, p3⟩ := hpw
    rw [List.pairwise_cons] at p2
    cases fuel with
    | zero => omega
    | succ fuel =>
      have e1 := h1.isIn v (fuel := fuel) (by omega) ⟨fun x hx => hv x (by simp [hx]), p1⟩
      have e2 := h2.isIn v (fuel := fuel) (by omega) ⟨fun x hx => hv x (by simp [hx]), p2.2⟩
      have hrv := hv r (by simp)
      simp only [isInTree, get, hn, Res.ok_bind, e1, e2, Res.pure_eq]
      have hcov : Covers (vals (.node b r tl tr)) v ↔ Covers (vals tl) v ∨ (r.1 ≤ v ∧ v ≤ r.2) ∨ Covers (vals tr) v := by
        rw [vals, covers_append, covers_cons]
      have hr : Covers (vals tr) v → r.2 + 1 < v := by
        rintro ⟨s, hs, hv⟩
        have := p2.1 s hs
        omega
      have hl : Covers (vals tl) v → v + 1 < r.1 := by
        rintro ⟨s, hs, hv⟩
        have := p3 s hs r (by simp)
        omega
      split
      · congr 1
        rw [decide_eq_decide, hcov]
        constructor
        · exact .inl
        · rintro (h | h | h)
          · exact h
          · omega
          · have := hr h; omega
      · split
        · congr 1
          rw [decide_eq_decide, hcov]
          constructor
          · exact fun h => .inr (.inr h)
          · rintro (h | h | h)
            · have := hl h; omega
            · omega
            · exact h
        · rw [decide_eq_true (by rw [hcov]; right; left; omega)]

/-! ### treeFree -/

theorem nodup_parts {a : Nat} {l m : List Nat} (h : (l ++ a :: m).Nodup) : l.Nodup ∧ m.Nodup ∧ a ∉ l ∧ a ∉ m ∧ (∀ x ∈ l, x ∉ m) := by
  rw [List.nodup_append] at h
  obtain ⟨h1, h2, h3⟩ := h
  rw [List.nodup_cons] at h2
  refine ⟨h1, h2.2, fun ha => h3 a ha a (by simp) rfl, h2.1, fun x hx hm => h3 x hx x (by simp [hm]) rfl⟩

theorem Rep.treeFree : ∀ {t : Tree} {h : Heap} {p : Option Nat} {fuel : Nat}, Rep h p t → depth t ≤ fuel → (addrs t).Nodup →
    ∃ h', treeFree fuel h p = .ok h' ∧ h'.next = h.next ∧ ∀ a, h'.node a = if a ∈ addrs t then none else h.node a
  | .leaf, h, p, fuel, hr, _, _ => by
    simp only [Rep] at hr
    subst hr
    exact ⟨h, by cases fuel <;> rfl, rfl, by simp [addrs]⟩
  | .node b r tl tr, h, p, fuel, ⟨hp, pl, pr, hn, h1, h2⟩, hd, hnd => by
    subst hp
    simp only [depth] at hd
    obtain ⟨n1, n2, n3, n4, n5⟩ := nodup_parts hnd
    cases fuel with
    | zero => omega
    | succ fuel =>
      obtain ⟨ha, e1, x1, f1⟩ := h1.treeFree (fuel := fuel) (by omega) n1
      have hb : ha.node b = some ⟨r.1, r.2, pl, pr⟩ := by rw [f1, if_neg n3]; exact hn
      have h2' : Rep ha pr tr := h2.frame (fun x hx => by rw [f1, if_neg (fun hc => n5 x hc hx)])
      obtain ⟨hc, e2, x2, f2⟩ := h2'.treeFree (fuel := fuel) (by omega) n2
      have hb2 : hc.node b = some ⟨r.1, r.2, pl, pr⟩ := by rw [f2, if_neg n4]; exact hb
      refine ⟨{ hc with node := fun j => if j = b then none else hc.node j }, ?_, ?_, ?_⟩
      · simp only [RS.treeFree, get, hn, Res.ok_bind, e1, hb, e2, free, hb2, Res.pure_eq]
      · simp only [x2, x1]
      · intro a
        simp only [addrs, List.mem_append, List.mem_cons]
        by_cases hab : a = b
        · simp [hab]
        · simp only [hab, if_false, f2, f1]
          by_cases hm : a ∈ addrs tr
          · simp [hm]
          · simp [hm]

/-! ### Bounds -/

theorem nodup_bound {l : List Nat} {n : Nat} (hn : l.Nodup) (hb : ∀ a ∈ l, a < n) : l.length ≤ n := by
  have h1 : l.toFinset ⊆ Finset.range n := by
    intro a ha
    rw [Finset.mem_range]
    exact hb a (List.mem_toFinset.1 ha)
  have h2 := Finset.card_le_card h1
  rw [Finset.card_range, List.toFinset_card_of_nodup hn] at h2
  exact h2

/-! ### Building the balanced tree -/

/-- The tree that `insertSorted` makes. -/
def mk (f : Nat → Nat × Nat) : Nat → List Nat → Tree
  | _, [] => .leaf
  | 0, _ :: _ => .leaf
  | fuel + 1, x :: xs =>
    let l := x :: xs
    let n := l.getD (l.length / 2) 0
    .node n (f n) (mk f fuel (l.take (l.length / 2))) (mk f fuel (l.drop (l.length / 2 + 1)))

theorem getD_get {l : List Nat} {i : Nat} (h : i < l.length) : l.getD i 0 = l[i] := by
  simp [List.getD, h]

theorem split_mid (l : List Nat) (h : l ≠ []) : l = l.take (l.length / 2) ++ l.getD (l.length / 2) 0 :: l.drop (l.length / 2 + 1) := by
  have hl : l.length / 2 < l.length := by
    have : 0 < l.length := List.length_pos_iff.2 h
    omega
  rw [getD_get hl]
  rw [List.cons_getElem_drop_succ, List.take_append_drop]

theorem mk_addrs (f : Nat → Nat × Nat) : ∀ (fuel : Nat) (l : List Nat), l.length ≤ fuel → addrs (mk f fuel l) = l
  | fuel, [], _ => by cases fuel <;> rfl
  | 0, _ :: _, h => by simp at h
  | fuel + 1, x :: xs, h => by
    have h0 : (x :: xs).length / 2 < (x :: xs).length := by simp only [List.length_cons]; omega
    simp only [mk, addrs]
    rw [mk_addrs f fuel _ (by rw [List.length_take]; omega), mk_addrs f fuel _ (by rw [List.length_drop]; omega)]
    exact (split_mid (x :: xs) (by simp)).symm

theorem mk_vals (f : Nat → Nat × Nat) : ∀ (fuel : Nat) (l : List Nat), l.length ≤ fuel → vals (mk f fuel l) = l.map f
  | fuel, [], _ => by cases fuel <;> rfl
  | 0, _ :: _, h => by simp at h
  | fuel + 1, x :: xs, h => by
    have h0 : (x :: xs).length / 2 < (x :: xs).length := by simp only [List.length_cons]; omega
    simp only [mk, vals]
    rw [mk_vals f fuel _ (by rw [List.length_take]; omega), mk_vals f fuel _ (by rw [List.length_drop]; omega)]
    conv => rhs; rw [split_mid (x :: xs) (by simp)]
    simp

theorem mk_depth (f : Nat → Nat × Nat) : ∀ (fuel : Nat) (l : List Nat) (k : Nat), l.length < 2 ^ k → depth (mk f fuel l) ≤ k
  | fuel, [], k, _ => by cases fuel <;> simp [mk, depth]
  | 0, _ :: _, k, h => by simp [mk, depth]
  | fuel + 1, x :: xs, k, h => by
    cases k with
    | zero => simp at h
    | succ k =>
      have h0 : (x :: xs).length / 2 < (x :: xs).length := by simp only [List.length_cons]; omega
      have hp : 2 ^ (k + 1) = 2 ^ k + 2 ^ k := by rw [Nat.pow_succ]; omega
      have i1 := mk_depth f fuel ((x :: xs).take ((x :: xs).length / 2)) k (by rw [List.length_take]; omega)
      have i2 := mk_depth f fuel ((x :: xs).drop ((x :: xs).length / 2 + 1)) k (by rw [List.length_drop]; omega)
      simp only [mk, depth]
      omega

theorem mk_congr {f g : Nat → Nat × Nat} : ∀ (fuel : Nat) (l : List Nat), l.length ≤ fuel → (∀ a ∈ l, f a = g a) → mk f fuel l = mk g fuel l
  | fuel, [], _, _ => by cases fuel <;> rfl
  | 0, _ :: _, h, _ => by simp at h
  | fuel + 1, x :: xs, h, hf => by
    have h0 : (x :: xs).length / 2 < (x :: xs).length := by simp only [List.length_cons]; omega
    simp only [mk]
    rw [mk_congr fuel _ (by rw [List.length_take]; omega) (fun a ha => hf a (List.mem_of_mem_take ha)),
      mk_congr fuel _ (by rw [List.length_drop]; omega) (fun a ha => hf a (List.mem_of_mem_drop ha))]
    congr 1
    apply hf
    rw [getD_get h0]
    exact List.getElem_mem _

end Nfqlb.RS
