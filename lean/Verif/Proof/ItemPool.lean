import Verif.Spec.ItemPool
import Mathlib.Data.List.Perm.Subperm

set_option autoImplicit false

namespace Nfqlb.Pool

open Spec

/-- The free list and the items in use together are all items. -/
structure Inv (n : Nat) (p : Pool) (used free : List Nat) : Prop where
  size : p.size = n
  small : n < 2 ^ 32
  mem : n ≠ 0 → p.mem = .block
  list : LinkedList p.next p.free free
  nodup : (used ++ free).Nodup
  all : ∀ i, i < n ↔ i ∈ used ∨ i ∈ free
  nFree : p.nFree = free.length

theorem LinkedList.congr {next next' : Nat → Option Nat} {h : Option Nat} {l : List Nat} (hl : LinkedList next h l)
    (he : ∀ i ∈ l, next' i = next i) : LinkedList next' h l := by
  induction hl with
  | nil => exact .nil
  | cons h ih =>
    rename_i i l
    refine .cons ?_
    rw [he i List.mem_cons_self]
    exact ih (fun j hj => he j (List.mem_cons_of_mem _ hj))

theorem LinkedList.setNext {next : Nat → Option Nat} {h : Option Nat} {l : List Nat} (hl : LinkedList next h l) {i : Nat} (hi : i ∉ l) (x : Option Nat) :
    LinkedList (setNext next i x) h l := by
  apply LinkedList.congr hl
  intro j hj
  unfold Pool.setNext
  rw [if_neg]
  rintro rfl
  exact hi hj

theorem initLoop_spec (n : Nat) : LinkedList (initLoop n).1 (initLoop n).2 (List.range n).reverse := by
  induction n with
  | zero => exact .nil
  | succ n ih =>
    unfold initLoop
    rw [List.range_succ, List.reverse_append]
    simp only [List.reverse_cons, List.reverse_nil, List.nil_append, List.cons_append]
    refine .cons ?_
    have : setNext (initLoop n).1 n (initLoop n).2 n = (initLoop n).2 := by unfold setNext; rw [if_pos rfl]
    rw [this]
    exact LinkedList.setNext ih (by simp) _

theorem inv_length {n : Nat} {p : Pool} {used free : List Nat} (h : Inv n p used free) : used.length + free.length = n := by
  have : (used ++ free).Perm (List.range n) := by
    rw [List.perm_ext_iff_of_nodup h.nodup List.nodup_range]
    intro i
    rw [List.mem_append, ← h.all, List.mem_range]
  have := this.length_eq
  simpa using this

theorem create_inv {n size : Nat} (hs : n * (sizeofItem + size) < 2 ^ 32) {p : Pool} {ev : List Ev}
    (hc : create n size true true = .ok (some p, ev)) : Inv n p [] (List.range n).reverse := by
  unfold create at hc
  simp only [Bool.true_eq_false, if_false] at hc
  split at hc
  · next h0 =>
    injection hc with hc
    have : _ = some p := congrArg Prod.fst hc
    injection this with this
    subst this
    subst h0
    exact ⟨rfl, by decide, fun h => absurd rfl h, .nil, by simp, by simp, rfl⟩
  · next h0 =>
    split at hc
    · cases hc
    · injection hc with hc
      have : _ = some p := congrArg Prod.fst hc
      injection this with this
      subst this
      refine ⟨rfl, ?_, fun _ => rfl, initLoop_spec n, ?_, ?_, by simp⟩
      · have : n ≤ n * (sizeofItem + size) := Nat.le_mul_of_pos_right _ (by unfold sizeofItem; omega)
        omega
      · rw [List.nil_append]; exact (List.reverse_perm _).nodup_iff.2 List.nodup_range
      · intro i; simp

theorem allocate_some {n : Nat} {p p' : Pool} {used free : List Nat} (h : Inv n p used free) {i : Nat} (ha : allocate p = (p', some i)) :
    ∃ free', free = i :: free' ∧ Inv n p' (i :: used) free' ∧ LinkedList p'.next (some i) [i] := by
  unfold allocate at ha
  simp only at ha
  cases hf : p.free with
  | none => rw [hf] at ha; simp at ha
  | some f =>
    rw [hf] at ha
    simp only [Prod.mk.injEq, Option.some.injEq] at ha
    obtain ⟨rfl, rfl⟩ := ha
    have hl := h.list
    rw [hf] at hl
    cases hl with
    | cons hl =>
      rename_i l
      refine ⟨l, rfl, ⟨h.size, h.small, h.mem, ?_, ?_, ?_, ?_⟩, ?_⟩
      · have hn := h.nodup
        rw [List.nodup_append] at hn
        exact LinkedList.setNext hl (List.nodup_cons.1 hn.2.1).1 _
      · have hn := h.nodup
        rw [List.nodup_append] at hn
        rw [List.cons_append, List.nodup_cons, List.mem_append, List.nodup_append]
        obtain ⟨n1, n2, n3⟩ := hn
        obtain ⟨n4, n5⟩ := List.nodup_cons.1 n2
        refine ⟨?_, n1, n5, fun a ha b hb => n3 a ha b (List.mem_cons_of_mem _ hb)⟩
        rintro (hu | hm)
        · exact n3 f hu f List.mem_cons_self rfl
        · exact n4 hm
      · intro j
        rw [h.all]
        simp only [List.mem_cons]
        constructor
        · rintro (a | rfl | a)
          · exact Or.inl (Or.inr a)
          · exact Or.inl (Or.inl rfl)
          · exact Or.inr a
        · rintro ((rfl | a) | a)
          · exact Or.inr (Or.inl rfl)
          · exact Or.inl a
          · exact Or.inr (Or.inr a)
      · have hlen := inv_length h
        have hs := h.small
        have hnf := h.nFree
        simp only [List.length_cons] at hlen hnf ⊢
        unfold u32
        omega
      · refine .cons ?_
        simp only [setNext, if_true]
        exact .nil

theorem allocate_none_eq {p p' : Pool} (ha : allocate p = (p', none)) :
    p.free = none ∧ p'.next = p.next ∧ p'.size = p.size ∧ p'.mem = p.mem ∧ p'.free = p.free ∧ p'.nFree = p.nFree := by
  unfold allocate at ha
  simp only at ha
  cases hf : p.free with
  | some f => rw [hf] at ha; injection ha with _ h2; cases h2
  | none =>
    rw [hf] at ha
    injection ha with ha _
    rw [← ha]
    exact ⟨rfl, rfl, rfl, rfl, rfl, rfl⟩

theorem allocate_none {n : Nat} {p p' : Pool} {used free : List Nat} (h : Inv n p used free) (ha : allocate p = (p', none)) :
    free = [] ∧ Inv n p' used [] ∧ p'.next = p.next ∧ p'.size = p.size := by
  obtain ⟨h1, h2, h3, h4, h5, h6⟩ := allocate_none_eq ha
  have hl := h.list
  rw [h1] at hl
  have hfree : free = [] := by cases hl; rfl
  subst hfree
  refine ⟨rfl, ⟨by rw [h3]; exact h.size, h.small, by rw [h4]; exact h.mem, ?_, h.nodup, h.all, by rw [h6]; exact h.nFree⟩, h2, h3⟩
  rw [h5, h1]
  exact .nil

/-- Giving back a list of items in use. -/
theorem freeLoop_inv {n : Nat} : ∀ (l : List Nat) (fuel : Nat) {p : Pool} {used free : List Nat} {h : Option Nat}, Inv n p used free →
    LinkedList p.next h l → l.Nodup → (∀ i ∈ l, i ∈ used) → l.length ≤ fuel →
    ∃ p', freeLoop fuel p h = .ok p' ∧ Inv n p' (used.filter (fun i => decide (i ∉ l))) (l.reverse ++ free) := by
  intro l
  induction l with
  | nil =>
    intro fuel p used free h hi hl _ _ _
    cases hl
    refine ⟨p, by cases fuel <;> rfl, ?_⟩
    have : used.filter (fun i => decide (i ∉ [])) = used := by rw [List.filter_eq_self]; simp
    rw [this]
    exact hi
  | cons i l ih =>
    intro fuel p used free h hi hl hnd hown hfuel
    cases hl with
    | cons hl =>
      cases fuel with
      | zero => simp at hfuel
      | succ fuel =>
        unfold freeLoop
        obtain ⟨nd1, nd2⟩ := List.nodup_cons.1 hnd
        have hiu := hown i List.mem_cons_self
        have hn := hi.nodup
        rw [List.nodup_append] at hn
        obtain ⟨n1, n2, n3⟩ := hn
        have hinf : i ∉ free := fun hm => n3 i hiu i hm rfl
        have hlen := inv_length hi
        have hpos : 0 < used.length := List.length_pos_of_mem hiu
        have hinv : Inv n { p with next := setNext p.next i p.free, free := some i, nFree := u32 (p.nFree + 1) }
            (used.filter (fun j => decide (j ≠ i))) (i :: free) := by
          refine ⟨hi.size, hi.small, hi.mem, ?_, ?_, ?_, ?_⟩
          · refine .cons ?_
            have : setNext p.next i p.free i = p.free := by unfold setNext; rw [if_pos rfl]
            simp only [this]
            exact LinkedList.setNext hi.list hinf _
          · rw [List.nodup_append]
            refine ⟨n1.filter _, List.nodup_cons.2 ⟨hinf, n2⟩, ?_⟩
            intro a ha b hb
            rw [List.mem_filter] at ha
            rcases List.mem_cons.1 hb with rfl | hb
            · exact of_decide_eq_true ha.2
            · exact n3 a ha.1 b hb
          · intro j
            rw [hi.all, List.mem_filter, List.mem_cons, decide_eq_true_eq]
            constructor
            · rintro (a | a)
              · by_cases hj : j = i
                · exact Or.inr (Or.inl hj)
                · exact Or.inl ⟨a, hj⟩
              · exact Or.inr (Or.inr a)
            · rintro (⟨a, _⟩ | rfl | a)
              · exact Or.inl a
              · exact Or.inl hiu
              · exact Or.inr a
          · have := hi.nFree
            have := hi.small
            simp only [List.length_cons]
            unfold u32
            omega
        have hl' : LinkedList (setNext p.next i p.free) (p.next i) l := LinkedList.setNext hl nd1 _
        obtain ⟨p', e1, e2⟩ := ih fuel (h := p.next i) hinv hl' nd2
          (by
            intro j hj
            rw [List.mem_filter, decide_eq_true_eq]
            exact ⟨hown j (List.mem_cons_of_mem _ hj), by rintro rfl; exact nd1 hj⟩)
          (by simpa using hfuel)
        refine ⟨p', e1, ?_⟩
        have hf : (used.filter (fun j => decide (j ≠ i))).filter (fun j => decide (j ∉ l)) = used.filter (fun j => decide (j ∉ i :: l)) := by
          rw [List.filter_filter]
          apply List.filter_congr
          intro j _
          simp only [List.mem_cons, not_or]
          by_cases h1 : j = i <;> by_cases h2 : j ∈ l <;> simp [h1, h2]
        rw [hf] at e2
        simpa using e2

theorem length_le {n : Nat} {p : Pool} {used free : List Nat} (h : Inv n p used free) {l : List Nat} (hnd : l.Nodup) (ho : ∀ i ∈ l, i ∈ used) :
    l.length ≤ p.size := by
  have h1 : l.length ≤ used.length := by
    have := List.Subperm.length_le (List.subperm_of_subset hnd ho)
    exact this
  have := inv_length h
  rw [h.size]
  omega

end Nfqlb.Pool

namespace Nfqlb.Pool

open Spec

theorem withNext_some {n : Nat} {p p' : Pool} {used free : List Nat} (h : Inv n p used free) {x : Option Nat} {i : Nat}
    (ha : allocateWithNext p x = .ok (p', some i)) : ∃ free', free = i :: free' ∧ Inv n p' (i :: used) free' ∧ p'.next i = x := by
  unfold allocateWithNext at ha
  rcases hq : allocate p with ⟨q, r⟩
  rw [hq] at ha
  cases r with
  | none =>
    simp only at ha
    cases hf : Nfqlb.Pool.free q x with
    | ok z => rw [hf] at ha; simp only [Res.ok_bind, Res.pure_eq] at ha; injection ha with ha; cases congrArg Prod.snd ha
    | _ => rw [hf] at ha; cases ha
  | some j =>
    simp only at ha
    injection ha with ha
    have e1 := congrArg Prod.fst ha
    have e2 : some j = some i := congrArg Prod.snd ha
    simp only at e1
    injection e2 with e2
    obtain ⟨f', g1, g2, _⟩ := allocate_some h hq
    rw [e2] at g1 g2
    refine ⟨f', g1, ?_, ?_⟩
    · rw [← e1]
      refine ⟨g2.size, g2.small, g2.mem, ?_, g2.nodup, g2.all, g2.nFree⟩
      have hn := g2.nodup
      rw [List.cons_append, List.nodup_cons] at hn
      rw [e2]
      exact LinkedList.setNext g2.list (fun hm => hn.1 (List.mem_append_right _ hm)) _
    · rw [← e1, e2]
      simp only [setNext, if_true]

theorem withNext_none {n : Nat} {p p' : Pool} {used free : List Nat} (h : Inv n p used free) {x : Option Nat} {l : List Nat} (hl : OwnList p used x l)
    (ha : allocateWithNext p x = .ok (p', none)) :
    free = [] ∧ Inv n p' (used.filter (fun i => decide (i ∉ l))) l.reverse := by
  unfold allocateWithNext at ha
  rcases hq : allocate p with ⟨q, r⟩
  rw [hq] at ha
  cases r with
  | some j => simp only at ha; injection ha with ha; cases congrArg Prod.snd ha
  | none =>
    obtain ⟨g1, g2, g3, g4⟩ := allocate_none h hq
    obtain ⟨p2, k1, k2⟩ := freeLoop_inv l q.size g2 (by rw [g3]; exact hl.list) hl.nodup hl.own (length_le g2 hl.nodup hl.own)
    simp only at ha
    unfold Nfqlb.Pool.free at ha
    rw [k1] at ha
    simp only [Res.ok_bind, Res.pure_eq] at ha
    injection ha with ha
    have e : p2 = p' := congrArg Prod.fst ha
    rw [← e]
    simp only [List.append_nil] at k2
    exact ⟨g1, k2⟩

theorem hist_inv {n size : Nat} (hs : n * (sizeofItem + size) < 2 ^ 32) {p : Pool} {used : List Nat} (h : PoolHist n size p used) :
    ∃ free, Inv n p used free := by
  induction h with
  | create hc => exact ⟨_, create_inv hs hc⟩
  | got _ ha ih =>
    obtain ⟨f, hf⟩ := ih
    obtain ⟨f', _, h2, _⟩ := allocate_some hf ha
    exact ⟨f', h2⟩
  | gotNone _ ha ih =>
    obtain ⟨f, hf⟩ := ih
    exact ⟨[], (allocate_none hf ha).2.1⟩
  | freed _ ho hf' ih =>
    obtain ⟨f, hf⟩ := ih
    rename_i p used h l p' _
    obtain ⟨p2, k1, k2⟩ := freeLoop_inv l p.size hf ho.list ho.nodup ho.own (length_le hf ho.nodup ho.own)
    unfold Nfqlb.Pool.free at hf'
    rw [k1] at hf'
    injection hf' with hf'
    rw [← hf']
    exact ⟨_, k2⟩
  | gotWithNext _ ho ha ih =>
    obtain ⟨f, hf⟩ := ih
    obtain ⟨f', _, h2, _⟩ := withNext_some hf ha
    exact ⟨f', h2⟩
  | freedNext _ ho ha ih =>
    obtain ⟨f, hf⟩ := ih
    exact ⟨_, (withNext_none hf ho ha).2⟩
  | link _ hi ih =>
    obtain ⟨f, hf⟩ := ih
    rename_i p used i x _
    refine ⟨f, ⟨hf.size, hf.small, hf.mem, ?_, hf.nodup, hf.all, hf.nFree⟩⟩
    have hn := hf.nodup
    rw [List.nodup_append] at hn
    exact LinkedList.setNext hf.list (fun hm => hn.2.2 i hi i hm rfl) _
  | clear _ ih =>
    obtain ⟨f, hf⟩ := ih
    exact ⟨f, ⟨hf.size, hf.small, hf.mem, hf.list, hf.nodup, hf.all, hf.nFree⟩⟩

end Nfqlb.Pool
