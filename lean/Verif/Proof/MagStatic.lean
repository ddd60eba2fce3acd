import Verif.Model.MagStatic
import Verif.Proof.MaglevConfig

/-! The tables in arrays of fixed size: the model of `lib/maglev.c` does the same as the model of `lib/maglevdyn.c`. -/

set_option autoImplicit false

namespace Nfqlb.MagStatic

open Spec

/-! ### Setting up -/

/-- The value stored in a row. -/
def cell (M offset skip j : Nat) : Nat := u32 (offset + u32 (j * skip)) % M

theorem fillRow_range (M offset skip : Nat) : ∀ (k a : Nat) (row : List Nat), a + k ≤ row.length →
    fillRow M offset skip (List.range' a k) row =
      .ok (row.take a ++ (List.range' a k).map (cell M offset skip) ++ row.drop (a + k)) := by
  intro k
  induction k with
  | zero => intro a row _; simp [fillRow]
  | succ k ih =>
    intro a row h
    rw [List.range'_succ]
    unfold fillRow
    rw [if_pos (by omega), ih (a + 1) _ (by rw [List.length_set]; omega)]
    congr 1
    have h1 : (row.set a (u32 (offset + u32 (a * skip)) % M)).take (a + 1) =
        row.take a ++ [cell M offset skip a] := by
      rw [List.take_add_one, List.take_set_of_le (Nat.le_refl a), List.getElem?_set_self (by omega)]
      rfl
    rw [h1, List.drop_set_of_lt (by omega)]
    simp only [List.map_cons, List.append_assoc, List.cons_append, List.nil_append]
    congr 4
    omega

/-- A row of the fixed size array: the row of the other variant, and after it the zeros of `memset`. -/
def wideRow (MM M : Nat) (rnd : Nat → Nat) (i : Nat) : List Nat :=
  Maglev.randRow M rnd i ++ List.replicate (MM - M) 0

theorem fillRow_eq {MM M offset skip : Nat} (h : M ≤ MM) :
    fillRow M offset skip (List.range M) (List.replicate MM 0) =
      .ok (Maglev.permRow M offset skip ++ List.replicate (MM - M) 0) := by
  rw [List.range_eq_range', fillRow_range M offset skip M 0 _ (by simpa using h)]
  simp only [List.take_zero, List.nil_append, Nat.zero_add, List.drop_replicate]
  rw [← List.range_eq_range']
  rfl

theorem fillRows_range {MM M : Nat} (hM : M ≤ MM) (h2 : 2 ≤ M) (rnd : Nat → Nat) : ∀ (k a : Nat)
    (perm : List (List Nat)), a + k ≤ perm.length → (∀ i, a ≤ i → i < a + k → perm[i]? = some (List.replicate MM 0)) →
    fillRows M rnd (List.range' a k) perm =
      .ok (perm.take a ++ (List.range' a k).map (wideRow MM M rnd) ++ perm.drop (a + k)) := by
  intro k
  induction k with
  | zero => intro a perm _ _; simp [fillRows]
  | succ k ih =>
    intro a perm h hz
    rw [List.range'_succ]
    unfold fillRows
    rw [if_neg (by omega), hz a (Nat.le_refl a) (by omega)]
    dsimp only
    rw [fillRow_eq hM]
    dsimp only
    rw [ih (a + 1) _ (by rw [List.length_set]; omega) (by
      intro i h1 h3
      rw [List.getElem?_set_ne (by omega)]
      exact hz i (by omega) (by omega))]
    congr 1
    have h1 : (perm.set a (Maglev.permRow M (rnd (2 * a) % M) (rnd (2 * a + 1) % (M - 1) + 1) ++
        List.replicate (MM - M) 0)).take (a + 1) = perm.take a ++ [wideRow MM M rnd a] := by
      rw [List.take_add_one, List.take_set_of_le (Nat.le_refl a), List.getElem?_set_self (by omega)]
      rfl
    rw [h1, List.drop_set_of_lt (by omega)]
    simp only [List.map_cons, List.append_assoc, List.cons_append, List.nil_append]
    congr 4
    omega

/-- The permutations that `initMagData` makes. -/
def widePerm (MM NN m n : Nat) (rnd : Nat → Nat) : List (List Nat) :=
  (List.range n).map (wideRow MM m rnd) ++ List.replicate (NN - n) (List.replicate MM 0)

theorem init_eq {MM NN m n : Nat} (h2 : 2 ≤ m) (hm : m ≤ MM) (hn : n ≤ NN) (rnd : Nat → Nat) :
    initMagData MM NN m n rnd =
      .ok { M := m, N := n, lookup := List.replicate MM 0, perm := widePerm MM NN m n rnd,
            active := List.replicate NN 0 } := by
  unfold initMagData
  have h := fillRows_range hm h2 rnd n 0 (List.replicate NN (List.replicate MM 0)) (by simpa using hn)
    (by intro i _ hi; rw [List.getElem?_replicate, if_pos (by omega)])
  rw [← List.range_eq_range'] at h
  rw [h]
  simp only [List.take_zero, List.nil_append, Nat.zero_add, List.drop_replicate, widePerm]

theorem fillRow_res (M offset skip : Nat) : ∀ (js row : List Nat),
    (∃ row', fillRow M offset skip js row = .ok row' ∧ (∀ j ∈ js, j < row.length) ∧ row'.length = row.length) ∨
      (fillRow M offset skip js row = .ub ∧ ∃ j ∈ js, row.length ≤ j) := by
  intro js
  induction js with
  | nil => intro row; exact .inl ⟨row, rfl, by simp, rfl⟩
  | cons j js ih =>
    intro row
    unfold fillRow
    by_cases hj : j < row.length
    · rw [if_pos hj]
      rcases ih (row.set j (u32 (offset + u32 (j * skip)) % M)) with ⟨row', h1, h2, h3⟩ | ⟨h1, k, hk, h2⟩
      · rw [List.length_set] at h2 h3
        exact .inl ⟨row', h1, List.forall_mem_cons.2 ⟨hj, h2⟩, h3⟩
      · rw [List.length_set] at h2
        exact .inr ⟨h1, k, List.mem_cons_of_mem _ hk, h2⟩
    · rw [if_neg hj]
      exact .inr ⟨rfl, j, List.mem_cons_self .., by omega⟩

theorem fillRows_res {MM : Nat} (M : Nat) (rnd : Nat → Nat) : ∀ (is : List Nat) (perm : List (List Nat)),
    (∀ row ∈ perm, row.length = MM) →
    (∃ perm', fillRows M rnd is perm = .ok perm' ∧ (is ≠ [] → 2 ≤ M ∧ M ≤ MM) ∧ ∀ i ∈ is, i < perm.length) ∨
      fillRows M rnd is perm = .ub := by
  intro is
  induction is with
  | nil => intro perm _; exact .inl ⟨perm, rfl, by simp, by simp⟩
  | cons i is ih =>
    intro perm hl
    unfold fillRows
    by_cases hM : M = 0 ∨ M - 1 = 0
    · rw [if_pos hM]; exact .inr rfl
    · rw [if_neg hM]
      cases hi : perm[i]? with
      | none => exact .inr rfl
      | some row =>
        have hrow := hl row (List.mem_of_getElem? hi)
        have hil : i < perm.length := by
          rcases Nat.lt_or_ge i perm.length with h' | h'
          · exact h'
          · rw [List.getElem?_eq_none h'] at hi; simp at hi
        dsimp only
        rcases fillRow_res M (rnd (2 * i) % M) (rnd (2 * i + 1) % (M - 1) + 1) (List.range M) row with
          ⟨row', h1, h2, h3⟩ | ⟨h1, _⟩
        · rw [h1]
          dsimp only
          have hMM : M ≤ MM := by
            have := h2 (M - 1) (List.mem_range.2 (by omega))
            omega
          rcases ih (perm.set i row') (by
            intro r hr
            rcases List.mem_or_eq_of_mem_set hr with h' | h'
            · exact hl r h'
            · rw [h', h3, hrow]) with ⟨perm', h4, _, h6⟩ | h4
          · rw [List.length_set] at h6
            exact .inl ⟨perm', h4, fun _ => ⟨by omega, hMM⟩, List.forall_mem_cons.2 ⟨hil, h6⟩⟩
          · exact .inr h4
        · rw [h1]; exact .inr rfl

/-- `initMagData` has undefined behaviour exactly when there are targets and a dimension is out of the limits. -/
theorem init_defined (MM NN m n : Nat) (rnd : Nat → Nat) :
    ((∃ d, initMagData MM NN m n rnd = .ok d) ↔ n = 0 ∨ (2 ≤ m ∧ m ≤ MM ∧ n ≤ NN)) ∧
      ((∃ d, initMagData MM NN m n rnd = .ok d) ∨ initMagData MM NN m n rnd = .ub) := by
  have hres := fillRows_res (MM := MM) m rnd (List.range n) (List.replicate NN (List.replicate MM 0))
    (by intro row h; rw [List.eq_of_mem_replicate h]; simp)
  refine ⟨⟨?_, ?_⟩, ?_⟩
  · rintro ⟨d, h⟩
    unfold initMagData at h
    rcases hres with ⟨perm', h1, h2, h3⟩ | h1
    · by_cases hn : n = 0
      · exact .inl hn
      · have h4 := h2 (by simp [hn])
        have h5 := h3 (n - 1) (List.mem_range.2 (by omega))
        rw [List.length_replicate] at h5
        exact .inr ⟨h4.1, h4.2, by omega⟩
    · rw [h1] at h; simp at h
  · rintro (h | ⟨h1, h2, h3⟩)
    · subst h; exact ⟨_, rfl⟩
    · exact ⟨_, init_eq h1 h2 h3 rnd⟩
  · unfold initMagData
    rcases hres with ⟨perm', h1, _⟩ | h1
    · rw [h1]; exact .inl ⟨_, rfl⟩
    · rw [h1]; exact .inr rfl

/-! ### Filling the table -/

theorem clear_range : ∀ (k a : Nat) (l : List Int), a + k ≤ l.length →
    clear (List.range' a k) l = .ok (l.take a ++ List.replicate k (-1) ++ l.drop (a + k)) := by
  intro k
  induction k with
  | zero => intro a l _; simp [clear]
  | succ k ih =>
    intro a l h
    rw [List.range'_succ]
    unfold clear
    rw [if_pos (by omega), ih (a + 1) _ (by rw [List.length_set]; omega)]
    congr 1
    have h1 : (l.set a (-1)).take (a + 1) = l.take a ++ [-1] := by
      rw [List.take_add_one, List.take_set_of_le (Nat.le_refl a), List.getElem?_set_self (by omega)]
      rfl
    rw [h1, List.drop_set_of_lt (by omega), List.replicate_succ]
    simp only [List.append_assoc, List.cons_append, List.nil_append]
    congr 4
    omega

theorem clear_eq {M : Nat} {l : List Int} (h : M ≤ l.length) :
    clear (List.range M) l = .ok (List.replicate M (-1) ++ l.drop M) := by
  have := clear_range M 0 l (by omega)
  rw [← List.range_eq_range'] at this
  simpa using this

/-- The fwmarks that stand for the same active targets in the other variant: a target that is not active has -1 there and
0 here. -/
def marks (n : Nat) (active : List Nat) : List Int :=
  (active.take n).map (fun (a : Nat) => if a = 0 then (-1 : Int) else (a : Int))

theorem marks_get {n : Nat} {active : List Nat} {i a : Nat} (hi : i < n) (h : active[i]? = some a) :
    (marks n active)[i]? = some (if a = 0 then -1 else (a : Int)) := by
  unfold marks
  rw [List.getElem?_map, List.getElem?_take, if_pos hi, h]
  rfl

theorem marks_length {n : Nat} {active : List Nat} (h : n ≤ active.length) : (marks n active).length = n := by
  unfold marks; simp [h]

theorem count_acc (active : List Nat) : ∀ (is : List Nat) (k : Nat), (∀ i ∈ is, i < active.length) →
    ∃ r, count active is k = .ok r ∧ k ≤ r ∧ (r = k ↔ ∀ i ∈ is, active[i]? = some 0) := by
  intro is
  induction is with
  | nil => intro k _; exact ⟨k, rfl, Nat.le_refl k, by simp⟩
  | cons i is ih =>
    intro k h
    have hi := h i (List.mem_cons_self ..)
    obtain ⟨r, hr, hk, hiff⟩ := ih (if active[i] ≠ 0 then k + 1 else k)
      (fun j hj => h j (List.mem_cons_of_mem _ hj))
    refine ⟨r, ?_, ?_, ?_⟩
    · unfold count
      rw [List.getElem?_eq_getElem hi]
      exact hr
    · split at hk <;> omega
    · rw [List.forall_mem_cons, List.getElem?_eq_getElem hi]
      by_cases hz : active[i] = 0
      · rw [if_neg (by simp [hz])] at hiff
        rw [hiff]; simp [hz]
      · rw [if_pos hz] at hk
        constructor
        · intro h'; omega
        · intro h'; exact absurd (by simpa using h'.1) hz

theorem count_eq {n : Nat} {active : List Nat} (h : n ≤ active.length) :
    ∃ r, count active (List.range n) 0 = .ok r ∧ (r = 0 ↔ Maglev.nActive (marks n active) = 0) := by
  obtain ⟨r, hr, _, hiff⟩ := count_acc active (List.range n) 0 (by intro i hi; rw [List.mem_range] at hi; omega)
  refine ⟨r, hr, ?_⟩
  rw [hiff]
  have hp := Maglev.nActive_pos_iff (marks n active)
  constructor
  · intro hz
    by_contra hc
    obtain ⟨k, fw, hk, h0⟩ := hp.1 hc
    have hkl : k < n := by
      rcases Nat.lt_or_ge k (marks n active).length with h' | h'
      · rwa [marks_length h] at h'
      · rw [List.getElem?_eq_none h'] at hk; simp at hk
    rw [marks_get hkl (hz k (List.mem_range.2 hkl)), if_pos rfl] at hk
    injection hk with hk
    omega
  · intro hz i hi
    rw [List.mem_range] at hi
    have hl : i < active.length := by omega
    rw [List.getElem?_eq_getElem hl]
    congr 1
    by_contra hc
    apply hp.2 ⟨i, (active[i] : Int), ?_, by omega⟩ hz
    rw [marks_get hi (List.getElem?_eq_getElem hl), if_neg hc]

theorem search_wide {l xs : List Int} {ys : List Nat} : ∀ (rest : List Nat) (nx : Nat) (r : Nat × Nat),
    Maglev.findFree l rest nx = .ok r → search (l ++ xs) (rest ++ ys) nx = .ok r := by
  intro rest
  induction rest with
  | nil => intro nx r h; simp [Maglev.findFree] at h
  | cons c rest ih =>
    intro nx r h
    unfold Maglev.findFree at h
    rw [List.cons_append]
    unfold search
    cases hc : l[c]? with
    | none => rw [hc] at h; simp at h
    | some v =>
      rw [hc] at h
      have hlt : c < l.length := by
        rcases Nat.lt_or_ge c l.length with h' | h'
        · exact h'
        · rw [List.getElem?_eq_none h'] at hc; simp at hc
      rw [List.getElem?_append_left hlt, hc]
      dsimp only at h ⊢
      split at h
      · rename_i hv; rw [if_pos hv]; exact ih _ _ h
      · rename_i hv; rw [if_neg hv]; exact h

/-- The state of the other variant and the wider arrays of this one. -/
def wide (xs : List Int) (zs : List Nat) (s : Maglev.PopSt) : St :=
  { lookup := s.lookup ++ xs, next := s.next ++ zs, n := s.n }

/-- The rows of this variant begin with the rows of the other one. -/
def WideRows (perm : List (List Nat)) (wperm : List (List Nat)) : Prop :=
  ∀ (i : Nat) (row : List Nat), perm[i]? = some row → ∃ ys, wperm[i]? = some (row ++ ys)

theorem findFree_bounds {l : List Int} : ∀ (rest : List Nat) (nx nx' c : Nat),
    Maglev.findFree l rest nx = .ok (nx', c) → c < l.length := by
  intro rest
  induction rest with
  | nil => intro nx nx' c h; simp [Maglev.findFree] at h
  | cons d rest ih =>
    intro nx nx' c h
    unfold Maglev.findFree at h
    cases hd : l[d]? with
    | none => rw [hd] at h; simp at h
    | some v =>
      rw [hd] at h
      dsimp only at h
      split at h
      · exact ih _ _ _ h
      · injection h with h
        injection h with h1 h2
        subst h2
        rcases Nat.lt_or_ge d l.length with h' | h'
        · exact h'
        · rw [List.getElem?_eq_none h'] at hd; simp at hd

theorem turn_wide {perm wperm : List (List Nat)} (hw : WideRows perm wperm) {xs : List Int} {zs : List Nat} {i : Nat}
    {s s' : Maglev.PopSt} (h : Maglev.place perm i s = .ok s') : turn wperm i (wide xs zs s) = .ok (wide xs zs s') := by
  unfold Maglev.place at h
  cases hr : perm[i]? with
  | none => rw [hr] at h; simp at h
  | some row =>
    cases hn : s.next[i]? with
    | none => rw [hr, hn] at h; simp at h
    | some nx =>
      rw [hr, hn] at h
      dsimp only at h
      have hle : nx ≤ row.length := by
        rcases Nat.lt_or_ge row.length nx with h' | h'
        · rw [List.drop_of_length_le (by omega)] at h; simp [Maglev.findFree] at h
        · exact h'
      cases hf : Maglev.findFree s.lookup (row.drop nx) nx with
      | die => rw [hf] at h; simp at h
      | ub => rw [hf] at h; simp at h
      | hang => rw [hf] at h; simp at h
      | ok p =>
        obtain ⟨nx', c⟩ := p
        rw [hf] at h
        injection h with h
        obtain ⟨ys, hwr⟩ := hw i row hr
        have hil : i < s.next.length := by
          rcases Nat.lt_or_ge i s.next.length with h' | h'
          · exact h'
          · rw [List.getElem?_eq_none h'] at hn; simp at hn
        have hcl := findFree_bounds _ _ _ _ hf
        unfold turn
        have e1 : (wide xs zs s).next[i]? = some nx := by
          show (s.next ++ zs)[i]? = _
          rw [List.getElem?_append_left hil, hn]
        rw [hwr, e1]
        dsimp only
        have e2 : search (wide xs zs s).lookup ((row ++ ys).drop nx) nx = .ok (nx', c) := by
          rw [List.drop_append_of_le_length hle]
          exact search_wide _ _ _ hf
        rw [e2]
        dsimp only
        rw [← h]
        unfold wide
        congr 1
        rw [List.set_append_left _ _ hcl, List.set_append_left _ _ hil]

theorem round_wide {M n : Nat} {perm wperm : List (List Nat)} (hw : WideRows perm wperm) {active : List Nat}
    (hn : n ≤ active.length) {xs : List Int} {zs : List Nat} : ∀ (is : List Nat) (s : Maglev.PopSt)
    (r : Maglev.PopSt × Bool), (∀ i ∈ is, i < n) → Maglev.pass M perm (marks n active) is s = .ok r →
    round M wperm active is (wide xs zs s) = .ok (wide xs zs r.1, r.2) := by
  intro is
  induction is with
  | nil =>
    intro s r _ h
    unfold Maglev.pass at h
    injection h with h
    subst h
    rfl
  | cons i is ih =>
    intro s r hi h
    have hin := hi i (List.mem_cons_self ..)
    have his : ∀ j ∈ is, j < n := fun j hj => hi j (List.mem_cons_of_mem _ hj)
    have hl : i < active.length := by omega
    unfold Maglev.pass at h
    rw [marks_get hin (List.getElem?_eq_getElem hl)] at h
    unfold round
    rw [List.getElem?_eq_getElem hl]
    dsimp only at h ⊢
    by_cases hz : active[i] = 0
    · rw [if_pos hz, if_pos (by decide)] at h
      rw [if_pos hz]
      exact ih s r his h
    · rw [if_neg hz, if_neg (by omega)] at h
      rw [if_neg hz]
      cases hp : Maglev.place perm i s with
      | die => rw [hp] at h; simp at h
      | ub => rw [hp] at h; simp at h
      | hang => rw [hp] at h; simp at h
      | ok s' =>
        rw [hp] at h
        dsimp only at h
        rw [turn_wide hw hp]
        dsimp only
        by_cases hM : s'.n = M
        · rw [if_pos hM] at h
          rw [if_pos (show (wide xs zs s').n = M from hM)]
          injection h with h
          subst h
          rfl
        · rw [if_neg hM] at h
          rw [if_neg (show ¬ (wide xs zs s').n = M from hM)]
          exact ih s' r his h

theorem rounds_wide {M n : Nat} {perm wperm : List (List Nat)} (hw : WideRows perm wperm) {active : List Nat}
    (hn : n ≤ active.length) {xs : List Int} {zs : List Nat} : ∀ (fuel : Nat) (s : Maglev.PopSt) (l : List Int),
    Maglev.passes M n perm (marks n active) fuel s = .ok l →
    rounds M n wperm active fuel (wide xs zs s) = .ok (l ++ xs) := by
  intro fuel
  induction fuel with
  | zero => intro s l h; simp [Maglev.passes] at h
  | succ fuel ih =>
    intro s l h
    unfold Maglev.passes at h
    unfold rounds
    cases hp : Maglev.pass M perm (marks n active) (List.range n) s with
    | die => rw [hp] at h; simp at h
    | ub => rw [hp] at h; simp at h
    | hang => rw [hp] at h; simp at h
    | ok p =>
      rw [hp] at h
      rw [round_wide hw hn _ _ _ (fun i hi => List.mem_range.1 hi) hp]
      obtain ⟨s', b⟩ := p
      cases b with
      | true =>
        dsimp only at h ⊢
        injection h with h
        subst h
        rfl
      | false => exact ih s' l h

/-- The dimensions are in the limits of the arrays. -/
structure Fits (MM NN : Nat) (d : MagS) : Prop where
  m : d.M ≤ MM
  n : d.N ≤ NN
  lookup : d.lookup.length = MM
  active : d.active.length = NN

theorem table_wide {MM NN : Nat} {d : MagS} (hd : Fits MM NN d) {perm : List (List Nat)} (hw : WideRows perm d.perm)
    {l : List Int} (h : Maglev.populateLookup d.M d.N perm (marks d.N d.active) = .ok l) :
    table NN d = .ok (l ++ d.lookup.drop d.M) := by
  have hm := hd.m
  have hn := hd.n
  have hl := hd.lookup
  have ha := hd.active
  unfold table
  rw [clear_eq (by omega)]
  dsimp only
  obtain ⟨r, hr, hz⟩ := count_eq (n := d.N) (active := d.active) (by omega)
  rw [hr]
  dsimp only
  unfold Maglev.populateLookup at h
  by_cases h0 : r = 0
  · simp only [if_pos (hz.1 h0)] at h
    rw [if_pos h0]
    injection h with h
    subst h
    rfl
  · simp only [if_neg (fun hc => h0 (hz.2 hc))] at h
    rw [if_neg h0]
    have e : List.replicate NN 0 = List.replicate d.N 0 ++ List.replicate (NN - d.N) 0 := by
      rw [List.replicate_append_replicate]; congr 1; omega
    rw [e]
    exact rounds_wide hw (by omega) d.M _ l h

theorem wideRows_init {MM NN m n : Nat} {rnd : Nat → Nat} :
    WideRows ((List.range n).map (Maglev.randRow m rnd)) (widePerm MM NN m n rnd) := by
  intro i row h
  rw [List.getElem?_map] at h
  have hi : i < n := by
    rcases Nat.lt_or_ge i n with h' | h'
    · exact h'
    · rw [List.getElem?_eq_none (by simpa using h')] at h; simp at h
  rw [List.getElem?_range hi] at h
  injection h with h
  subst h
  refine ⟨List.replicate (MM - m) 0, ?_⟩
  unfold widePerm
  rw [List.getElem?_append_left (by simpa using hi), List.getElem?_map, List.getElem?_range hi]
  rfl

end Nfqlb.MagStatic
