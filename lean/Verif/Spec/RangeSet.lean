import Verif.Model.RangeSet

/-! What a range set is: a set of numbers given by ranges. -/

namespace Nfqlb.Spec.RS

open Nfqlb.RS

/-- The numbers in a list of ranges. -/
def Covers (l : List (Nat × Nat)) (v : Nat) : Prop := ∃ r ∈ l, r.1 ≤ v ∧ v ≤ r.2

instance (l : List (Nat × Nat)) (v : Nat) : Decidable (Covers l v) := inferInstanceAs (Decidable (∃ r ∈ l, r.1 ≤ v ∧ v ≤ r.2))

/-- A range that may be added to a set with these limits. -/
def Allowed (lo hi : Nat) (r : Nat × Nat) : Prop := r.1 ≤ r.2 ∧ lo ≤ r.1 ∧ r.2 ≤ hi

instance (lo hi : Nat) (r : Nat × Nat) : Decidable (Allowed lo hi r) := inferInstanceAs (Decidable (_ ∧ _))

/-- The parameters of `rangeSetAdd` are `unsigned`. -/
def Unsigned (l : List (Nat × Nat)) : Prop := ∀ r ∈ l, r.1 ≤ 4294967295 ∧ r.2 ≤ 4294967295

instance (l : List (Nat × Nat)) : Decidable (Unsigned l) := inferInstanceAs (Decidable (∀ r ∈ l, _))

/-- Sorted, disjoint and not adjacent: there is a number between any range and a later one. -/
def Spaced (l : List (Nat × Nat)) : Prop := (∀ r ∈ l, r.1 ≤ r.2) ∧ l.Pairwise (fun r s => r.2 + 1 < s.1)

instance (l : List (Nat × Nat)) : Decidable (Spaced l) := inferInstanceAs (Decidable (_ ∧ _))

/-- What the C standard says about `qsort`: the array is permuted so that it is sorted. The order of elements that compare equal is not specified. -/
def QSort (qs : (Nat → Nat) → List Nat → List Nat) : Prop := ∀ key l, (qs key l).Perm l ∧ (qs key l).Pairwise (fun a b => key a ≤ key b)

/-- No nodes in use. -/
def emptyHeap : Heap := ⟨fun _ => none, 0⟩

/-- `rangeSetAdd` for every range in a list; the values returned are collected. -/
def addAll (h : Heap) (t : RangeSet) : List (Nat × Nat) → Heap × RangeSet × List Int
  | [] => (h, t, [])
  | r :: l =>
    let (h, t, x) := rangeSetAdd h t r.1 r.2
    let (h, t, xs) := addAll h t l
    (h, t, x :: xs)

/-- The ranges in a tree from left to right, if it is not deeper than `fuel`. -/
def inorder (h : Heap) : Nat → Option Nat → List (Nat × Nat)
  | _, none => []
  | 0, some _ => []
  | fuel + 1, some a =>
    match h.node a with
    | none => []
    | some n => inorder h fuel n.left ++ [(n.first, n.last)] ++ inorder h fuel n.right

/-- The ranges stored in a set. -/
def stored (h : Heap) (t : RangeSet) : List (Nat × Nat) := inorder h (h.next + 1) t.root

/-- The number of nodes that the search for a value reads. -/
def visits (h : Heap) (v : Nat) : Nat → Option Nat → Nat
  | _, none => 0
  | 0, some _ => 0
  | fuel + 1, some a =>
    match h.node a with
    | none => 0
    | some n => 1 + (if v < n.first then visits h v fuel n.left else if v > n.last then visits h v fuel n.right else 0)

/-- The text for a range: `a,` or `a-b,`. -/
def showRange (r : Nat × Nat) : List Char := (if r.1 = r.2 then Nat.toDigits 10 r.1 else Nat.toDigits 10 r.1 ++ ['-'] ++ Nat.toDigits 10 r.2) ++ [',']

/-- The text for a list of ranges. -/
def showRanges (l : List (Nat × Nat)) : List Char := l.flatMap showRange

/-- Two ranges do not overlap and are not adjacent. -/
def Apart (r s : Nat × Nat) : Prop := r.2 + 1 < s.1 ∨ s.2 + 1 < r.1

instance (r s : Nat × Nat) : Decidable (Apart r s) := inferInstanceAs (Decidable (_ ∨ _))

/-- Adding the ranges `new` to a set in which the ranges `old` are stored: no two of all ranges touch each other, and the range in the middle of all is a new one. -/
def Fits (old new : List (Nat × Nat)) : Prop :=
  (old ++ new).Pairwise Apart ∧ ∃ m ∈ new, (old ++ new).countP (fun r => r.1 < m.1) = (old ++ new).length / 2

instance (old new : List (Nat × Nat)) : Decidable (Fits old new) := inferInstanceAs (Decidable (_ ∧ _))

/-- Rounds of adding ranges and updating. -/
def rounds (qs : (Nat → Nat) → List Nat → List Nat) (h : Heap) (t : RangeSet) : List (List (Nat × Nat)) → Res (Heap × RangeSet)
  | [] => .ok (h, t)
  | l :: ls => do
    let (h, t, _) := addAll h t l
    let (h, t) ← rangeSetUpdate qs h t
    rounds qs h t ls

end Nfqlb.Spec.RS
