import Verif.Model.Argv
import Verif.Spec.Argv

/-! Splitting of text. -/

set_option autoImplicit false

namespace Nfqlb.Argv

open Nfqlb Nfqlb.Spec.Argv

theorem count_eq (delim s : List Char) (len : Nat) : count delim s len = match strtok delim s with
    | none => len
    | some (_, r) => count delim r (u32 (len + 1)) := by
  rw [count]
  split <;> rename_i h <;> rw [h]

theorem fill_eq (delim s : List Char) (cap : Nat) (arg : List (List Char)) : fill delim s cap arg = match strtok delim s with
    | none => .ok arg
    | some (t, r) => if cap ≤ arg.length then .ub else fill delim r cap (arg ++ [t.dropWhile (fun c => c == ' ')]) := by
  rw [fill]
  split <;> rename_i h <;> rw [h]

theorem all_span {delim : List Char} : ∀ (d r : List Char), (∀ c ∈ d, c ∈ delim) → (d ++ r).dropWhile (fun c => delim.contains c) = r.dropWhile (fun c => delim.contains c)
  | [], r, _ => rfl
  | c :: d, r, h => by
    have hc : delim.contains c = true := by simpa using h c (by simp)
    rw [List.cons_append, List.dropWhile_cons, if_pos hc]
    exact all_span d r (fun x hx => h x (by simp [hx]))

theorem run_span {delim : List Char} : ∀ (t r : List Char), (∀ c ∈ t, c ∉ delim) → (r = [] ∨ ∃ c r', r = c :: r' ∧ c ∈ delim) →
    (t ++ r).takeWhile (fun c => !delim.contains c) = t ∧ (t ++ r).dropWhile (fun c => !delim.contains c) = r
  | [], r, _, h => by
    rcases h with rfl | ⟨c, r', rfl, hc⟩
    · exact ⟨rfl, rfl⟩
    · constructor <;> simp [hc]
  | c :: t, r, h, hr => by
    have hc : (!delim.contains c) = true := by simpa using h c (by simp)
    obtain ⟨h1, h2⟩ := run_span t r (fun x hx => h x (by simp [hx])) hr
    rw [List.cons_append, List.takeWhile_cons, if_pos hc, List.dropWhile_cons, if_pos hc]
    exact ⟨by rw [h1], h2⟩

theorem strtok_spec {delim : List Char} (d t r : List Char) (hd : ∀ c ∈ d, c ∈ delim) (hne : t ≠ []) (ht : ∀ c ∈ t, c ∉ delim) (hr : r = [] ∨ ∃ c r', r = c :: r' ∧ c ∈ delim) :
    strtok delim (d ++ (t ++ r)) = some (t, r.drop 1) := by
  obtain ⟨c, t', rfl⟩ := List.exists_cons_of_ne_nil hne
  have hc : ¬ (delim.contains c = true) := by simpa using ht c (by simp)
  have h0 : ((c :: t') ++ r).dropWhile (fun c => delim.contains c) = (c :: t') ++ r := by
    rw [List.cons_append, List.dropWhile_cons, if_neg hc]
  obtain ⟨h1, h2⟩ := run_span (c :: t') r ht hr
  unfold strtok
  dsimp only
  rw [all_span _ _ hd, h0, if_neg (by simp), h1, h2]

theorem strtok_none {delim : List Char} (s : List Char) (hd : ∀ c ∈ s, c ∈ delim) : strtok delim s = none := by
  unfold strtok
  have := all_span s [] hd
  rw [List.append_nil] at this
  dsimp only
  rw [this]
  rfl

/-- What `strtok` gives on a text with given runs. -/
theorem strtok_splits {delim s : List Char} {ts : List (List Char)} (h : Splits delim s ts) :
    (ts = [] ∧ strtok delim s = none) ∨ ∃ t ts' r, ts = t :: ts' ∧ strtok delim s = some (t, r) ∧ Splits delim r ts' := by
  cases h with
  | nil s hs => exact .inl ⟨rfl, strtok_none s hs⟩
  | last d t hd hne ht =>
    refine .inr ⟨t, [], [], rfl, ?_, .nil [] (by simp)⟩
    have := strtok_spec d t [] hd hne ht (.inl rfl)
    rw [List.append_nil] at this
    exact this
  | cons d t c s ts hd hne ht hc hs =>
    refine .inr ⟨t, ts, s, rfl, ?_, hs⟩
    rw [List.append_assoc]
    exact strtok_spec d t (c :: s) hd hne ht (.inr ⟨c, s, rfl, hc⟩)

theorem count_splits {delim : List Char} : ∀ (ts : List (List Char)) (s : List Char) (n : Nat), Splits delim s ts → n + ts.length < 4294967296 → count delim s n = n + ts.length
  | ts, s, n, h, hlt => by
    rw [count_eq]
    rcases strtok_splits h with ⟨rfl, e⟩ | ⟨t, ts', r, rfl, e, hr⟩
    · rw [e]; rfl
    · rw [e]
      dsimp only
      simp only [List.length_cons] at hlt ⊢
      rw [show u32 (n + 1) = n + 1 from Nat.mod_eq_of_lt (by omega), count_splits ts' r (n + 1) hr (by omega)]
      omega
  termination_by ts => ts.length
  decreasing_by all_goals (subst_vars; simp)

theorem fill_splits {delim : List Char} : ∀ (ts : List (List Char)) (s : List Char) (cap : Nat) (arg : List (List Char)), Splits delim s ts → arg.length + ts.length ≤ cap →
    fill delim s cap arg = .ok (arg ++ ts.map trim)
  | ts, s, cap, arg, h, hlt => by
    rw [fill_eq]
    rcases strtok_splits h with ⟨rfl, e⟩ | ⟨t, ts', r, rfl, e, hr⟩
    · rw [e]; simp
    · rw [e]
      dsimp only
      simp only [List.length_cons] at hlt
      rw [if_neg (by omega), fill_splits ts' r cap _ hr (by simp; omega)]
      simp [trim]
  termination_by ts => ts.length
  decreasing_by all_goals (subst_vars; simp)

/-- Every text has runs. -/
theorem splits_exists (delim : List Char) : ∀ s : List Char, ∃ ts, Splits delim s ts
  | [] => ⟨[], .nil [] (by simp)⟩
  | c :: s => by
    obtain ⟨ts, h⟩ := splits_exists delim s
    by_cases hc : c ∈ delim
    · refine ⟨ts, ?_⟩
      cases h with
      | nil s hs => exact .nil _ (by simpa [hc] using hs)
      | last d t hd hne ht =>
        rw [← List.cons_append]
        exact .last _ t (by simpa [hc] using hd) hne ht
      | cons d t x s ts hd hne ht hx hs =>
        rw [← List.cons_append, ← List.cons_append]
        exact .cons _ t x s ts (by simpa [hc] using hd) hne ht hx hs
    · cases h with
      | nil s hs =>
        cases s with
        | nil => exact ⟨[[c]], .last [] [c] (by simp) (by simp) (by simpa using hc)⟩
        | cons x s =>
          refine ⟨[c] :: [], ?_⟩
          exact .cons [] [c] x s [] (by simp) (by simp) (by simpa using hc) (hs x (by simp)) (.nil s (fun y hy => hs y (by simp [hy])))
      | last d t hd hne ht =>
        cases d with
        | nil => exact ⟨[c :: t], .last [] (c :: t) (by simp) (by simp) (by simpa [hc] using ht)⟩
        | cons x d =>
          exact ⟨[c] :: [t], .cons [] [c] x (d ++ t) [t] (by simp) (by simp) (by simpa using hc) (hd x (by simp)) (.last d t (fun y hy => hd y (by simp [hy])) hne ht)⟩
      | cons d t x s ts hd hne ht hx hs =>
        cases d with
        | nil => exact ⟨(c :: t) :: ts, .cons [] (c :: t) x s ts (by simp) (by simp) (by simpa [hc] using ht) hx hs⟩
        | cons y d =>
          refine ⟨[c] :: t :: ts, ?_⟩
          exact .cons [] [c] y (d ++ t ++ x :: s) (t :: ts) (by simp) (by simp) (by simpa using hc) (hd y (by simp)) (.cons d t x s ts (fun z hz => hd z (by simp [hz])) hne ht hx hs)

/-- The runs of a text are unique. -/
theorem splits_unique {delim : List Char} : ∀ (ts us : List (List Char)) (s : List Char), Splits delim s ts → Splits delim s us → ts = us
  | ts, us, s, h, h' => by
    rcases strtok_splits h with ⟨rfl, e⟩ | ⟨t, ts', r, rfl, e, hr⟩
    · rcases strtok_splits h' with ⟨rfl, e'⟩ | ⟨t', us', r', rfl, e', hr'⟩
      · rfl
      · rw [e] at e'; cases e'
    · rcases strtok_splits h' with ⟨rfl, e'⟩ | ⟨t', us', r', rfl, e', hr'⟩
      · rw [e] at e'; cases e'
      · rw [e] at e'
        cases e'
        rw [splits_unique ts' us' r hr hr']
  termination_by ts => ts.length
  decreasing_by all_goals (subst_vars; simp)

theorem splits_length {delim s : List Char} {ts : List (List Char)} (h : Splits delim s ts) : ts.length ≤ s.length := by
  induction h with
  | nil s _ => simp
  | last d t _ hne _ =>
    have := List.length_pos_iff.2 hne
    simp; omega
  | cons d t c s ts _ hne _ _ _ ih =>
    simp; omega

theorem splits_nil {delim s : List Char} (h : Splits delim s []) : ∀ c ∈ s, c ∈ delim := by
  cases h with
  | nil _ hs => exact hs

/-- Items with commas between them. -/
theorem splits_joined {delim : List Char} (hd : ',' ∈ delim) : ∀ (items : List (List Char)), (∀ t ∈ items, t ≠ [] ∧ ∀ c ∈ t, c ∉ delim) → Splits delim (joined items) items
  | [], _ => .nil [] (by simp)
  | [t], h => by
    have := h t (by simp)
    have := Splits.last (delim := delim) [] t (by simp) this.1 this.2
    simpa [joined] using this
  | t :: u :: r, h => by
    have h1 := h t (by simp)
    have ih := splits_joined hd (u :: r) (fun x hx => h x (by simp only [List.mem_cons] at hx ⊢; exact .inr hx))
    have := Splits.cons (delim := delim) [] t ',' (joined (u :: r)) (u :: r) (by simp) h1.1 h1.2 hd ih
    have e : joined (t :: u :: r) = [] ++ t ++ ',' :: joined (u :: r) := by simp [joined, List.intercalate]
    rw [e]
    exact this

/-- `mkargv`. -/
theorem mkargv_spec {delim s : List Char} {ts : List (List Char)} (hd : delim ≠ []) (hl : s.length < 4294967295) (h : Splits delim s ts) :
    mkargv s delim = .ok (if ts = [] then none else some (ts.map trim)) := by
  unfold mkargv
  have hlen := splits_length h
  by_cases hs : s = []
  · subst hs
    rw [if_pos (.inl rfl)]
    simp only [List.length_nil, Nat.le_zero_eq, List.length_eq_zero_iff] at hlen
    rw [if_pos hlen]
  · rw [if_neg (by simp [hs, hd])]
    dsimp only
    rw [count_splits ts s 0 h (by omega)]
    by_cases ht : ts = []
    · subst ht
      rw [if_pos (by simp), if_pos rfl]
    · have hp := List.length_pos_iff.2 ht
      rw [if_neg (by omega), fill_splits ts s _ [] h (by simp), if_neg ht]
      simp only [Res.ok_bind, List.nil_append, List.length_map]
      rw [if_neg (by omega)]
      rfl

end Nfqlb.Argv
