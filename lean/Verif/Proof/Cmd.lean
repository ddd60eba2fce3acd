import Verif.Model.Cmd

/-! Lemmas about the table of commands. -/

set_option autoImplicit false

namespace Nfqlb.Cmd

open Nfqlb

/-- The table after the registrations `l`, which all found a place. -/
def tableOf (l : List (Str × Nat)) : Table := l.map some ++ List.replicate (21 - l.length) none

theorem firstFree_append (l : List (Str × Nat)) (k : Nat) : firstFree (l.map some ++ List.replicate (k + 1) none) = some l.length := by
  induction l with
  | nil => rfl
  | cons c l ih => simp only [List.map_cons, List.cons_append, firstFree, ih, Option.map_some, List.length_cons]

theorem addCmd_tableOf (l : List (Str × Nat)) (c : Str × Nat) (h : l.length < 20) : addCmd (tableOf l) c.1 c.2 = .ok (tableOf (l ++ [c])) := by
  have e : 21 - l.length = (20 - l.length) + 1 := by omega
  unfold addCmd tableOf
  rw [e, firstFree_append]
  dsimp only
  rw [if_pos (show l.length < maxCommands from h), List.length_append, List.length_singleton]
  have e2 : 21 - (l.length + 1) = 20 - l.length := by omega
  rw [e2, List.map_append, List.set_append_right _ _ (by simp)]
  simp [List.replicate_succ]

theorem addCmd_full (l : List (Str × Nat)) (c : Str × Nat) (h : l.length = 20) : addCmd (tableOf l) c.1 c.2 = .ok (tableOf l) := by
  unfold addCmd
  have : firstFree (tableOf l) = some l.length := by
    unfold tableOf
    rw [h]
    rw [firstFree_append, h]
  rw [this]
  dsimp only
  rw [if_neg (by rw [h]; decide)]

theorem addAll_tableOf (rs : List (Str × Nat)) : ∀ (l : List (Str × Nat)), l.length ≤ 20 → addAll (tableOf l) rs = .ok (tableOf ((l ++ rs).take 20)) := by
  induction rs with
  | nil => intro l h; rw [List.append_nil, List.take_of_length_le h]; rfl
  | cons r rs ih =>
    intro l h
    simp only [addAll]
    by_cases hl : l.length < 20
    · rw [addCmd_tableOf l r hl]
      simp only [Res.ok_bind]
      rw [ih _ (by rw [List.length_append, List.length_singleton]; omega), List.append_assoc]
      rfl
    · have : l.length = 20 := by omega
      rw [addCmd_full l r this]
      simp only [Res.ok_bind]
      rw [ih _ h, List.take_append_of_le_length (by omega), List.take_append_of_le_length (by omega)]

theorem addAll_empty (rs : List (Str × Nat)) : addAll empty rs = .ok (tableOf (rs.take 20)) := by
  have : empty = tableOf [] := rfl
  rw [this, addAll_tableOf rs [] (by decide)]
  rfl

theorem search_append (l : List (Str × Nat)) (k : Nat) (argv : List Str) (name : Str) :
    search (l.map some ++ List.replicate (k + 1) none) argv name =
      .ok (match l.find? (fun c => c.1 == name) with | some c => .call c.2 argv | none => .unknown name) := by
  induction l with
  | nil => rfl
  | cons c l ih =>
    simp only [List.map_cons, List.cons_append, search]
    by_cases h : name = c.1
    · rw [if_pos h, List.find?_cons_of_pos (by simp [h])]
    · rw [if_neg h, ih, List.find?_cons_of_neg (by simp; exact fun e => h e.symm)]

theorem names_append (l : List (Str × Nat)) (k : Nat) : names (l.map some ++ List.replicate (k + 1) none) = .ok (l.map (·.1)) := by
  induction l with
  | nil => rfl
  | cons c l ih => simp only [List.map_cons, List.cons_append, names, ih, Res.ok_bind, Res.pure_eq]

theorem search_tableOf (l : List (Str × Nat)) (h : l.length ≤ 20) (argv : List Str) (name : Str) :
    search (tableOf l) argv name = .ok (match l.find? (fun c => c.1 == name) with | some c => .call c.2 argv | none => .unknown name) := by
  unfold tableOf
  have e : 21 - l.length = (20 - l.length) + 1 := by omega
  rw [e, search_append]

theorem find_nodup (l : List (Str × Nat)) (hd : (l.map (·.1)).Nodup) (c : Str × Nat) (hc : c ∈ l) : l.find? (fun x => x.1 == c.1) = some c := by
  induction l with
  | nil => cases hc
  | cons x l ih =>
    rw [List.map_cons, List.nodup_cons] at hd
    rcases List.mem_cons.mp hc with rfl | hm
    · rw [List.find?_cons_of_pos (by simp)]
    · have : x.1 ≠ c.1 := fun e => hd.1 (e ▸ List.mem_map_of_mem hm)
      rw [List.find?_cons_of_neg (by simpa using this), ih hd.2 hm]

theorem find_none (l : List (Str × Nat)) (name : Str) (h : name ∉ l.map (·.1)) : l.find? (fun x => x.1 == name) = none := by
  rw [List.find?_eq_none]
  intro x hx e
  exact h (by have : x.1 = name := by simpa using e
              exact this ▸ List.mem_map_of_mem hx)

/-- With distinct names, the one behind the first 20 is not among these. -/
theorem behind (l : List Str) (hd : l.Nodup) (h : 20 < l.length) : l[20] ∉ l.take 20 := by
  intro hm
  obtain ⟨i, hi, he⟩ := List.mem_iff_getElem.mp hm
  rw [List.getElem_take] at he
  rw [List.length_take] at hi
  exact List.pairwise_iff_getElem.mp hd i 20 (by omega) h (by omega) he

end Nfqlb.Cmd
