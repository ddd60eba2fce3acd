import Verif.Spec.Start
import Verif.Proof.RangeText
import Mathlib.Tactic.Common

/-! The numbers that `%u` reads, exactly. -/

set_option autoImplicit false

namespace Nfqlb.Numeral

open Nfqlb Nfqlb.Spec.Start

theorem space_iff (c : Char) : CText.isSpace c = true ↔ c ∈ [' ', '\t', '\n', '\x0b', '\x0c', '\r'] := by
  unfold CText.isSpace
  simp [or_assoc]

theorem dropWhile_app {α : Type} (p : α → Bool) (l r : List α) (hl : ∀ c ∈ l, p c = true) (hr : ∀ c ∈ r.head?, p c = false) : (l ++ r).dropWhile p = r ∧ (l ++ r).takeWhile p = l := by
  induction l with
  | nil =>
    cases r with
    | nil => exact ⟨rfl, rfl⟩
    | cons c r =>
      have := hr c (by simp)
      simp [this]
  | cons c l ih =>
    have h1 := hl c (by simp)
    have h2 := ih (fun c hc => hl c (by simp [hc]))
    simp [h1, h2]

theorem take_all {α : Type} (p : α → Bool) (l : List α) : ∀ c ∈ l.takeWhile p, p c = true := by
  induction l with
  | nil => simp
  | cons c l ih =>
    by_cases h : p c = true
    · simp only [List.takeWhile_cons, h, if_true]
      intro d hd
      rcases List.mem_cons.1 hd with hd | hd
      · rw [hd]; exact h
      · exact ih d hd
    · simp [h]

theorem drop_head {α : Type} (p : α → Bool) (l : List α) : ∀ c ∈ (l.dropWhile p).head?, p c = false := by
  induction l with
  | nil => simp
  | cons c l ih =>
    by_cases h : p c = true
    · simp only [List.dropWhile_cons, h, if_true]
      exact ih
    · simp only [List.dropWhile_cons, h]
      intro d hd
      simp at hd
      subst hd
      simpa using h

theorem value_eq (n : Nat) (neg : Bool) : u32 (if n > 18446744073709551615 then 18446744073709551615 else if neg then u64 (18446744073709551616 - n) else n) =
    (if 2 ^ 64 ≤ n then 2 ^ 64 - 1 else if neg then 2 ^ 64 - n else n) % 2 ^ 32 := by
  unfold u32 u64
  have e : (2 : Nat) ^ 64 = 18446744073709551616 := by decide
  by_cases h : n > 18446744073709551615
  · have h' : 2 ^ 64 ≤ n := by omega
    rw [if_pos h, if_pos h', e]
  · have h' : ¬ 2 ^ 64 ≤ n := by omega
    rw [if_neg h, if_neg h', e]
    cases neg
    · rfl
    · simp only [if_true]
      omega

theorem scanU_iff (s : List Char) (v : Nat) (r : List Char) : CText.scanU s = some (v, r) ↔ Numeral s v r := by
  constructor
  · intro h
    unfold CText.scanU at h
    simp only [Option.ite_none_left_eq_some, Option.some.injEq, Prod.mk.injEq] at h
    obtain ⟨h1, h2, h3⟩ := h
    have hb := List.takeWhile_append_dropWhile (p := CText.isSpace) (l := s)
    have hbs := take_all CText.isSpace s
    generalize s.takeWhile CText.isSpace = blanks at hb hbs
    generalize s.dropWhile CText.isSpace = t at hb h1 h2 h3
    obtain ⟨sign, u, hs, ht, hu, hneg⟩ : ∃ sign u, (sign = [] ∨ sign = ['-'] ∨ sign = ['+']) ∧ t = sign ++ u ∧
        (if (t.head? == some '-' || t.head? == some '+') = true then t.drop 1 else t) = u ∧ ((t.head? == some '-') = decide (sign = ['-'])) := by
      cases t with
      | nil => exact ⟨[], [], Or.inl rfl, rfl, rfl, by decide⟩
      | cons c t =>
        by_cases c1 : c = '-'
        · subst c1; exact ⟨['-'], t, by simp, rfl, by simp, by simp⟩
        · by_cases c2 : c = '+'
          · subst c2; exact ⟨['+'], t, by simp, rfl, by simp, by simp⟩
          · exact ⟨[], c :: t, Or.inl rfl, rfl, by simp [c1, c2], by simp [c1]⟩
    rw [hu] at h1 h2 h3
    rw [hneg, value_eq] at h2
    refine ⟨blanks, sign, u.takeWhile Char.isDigit, ?_, fun c hc => (space_iff c).1 (hbs c hc), hs, h1, take_all _ _, ?_, ?_⟩
    · rw [← h3, List.takeWhile_append_dropWhile, ← ht, hb]
    · rw [← h3]; exact drop_head _ _
    · rw [← h2]; simp
  · rintro ⟨blanks, sign, ds, rfl, hb, hs, hd, hds, hr, rfl⟩
    obtain ⟨d, ds', rfl⟩ : ∃ d ds', ds = d :: ds' := by
      cases ds with
      | nil => exact absurd rfl hd
      | cons d ds' => exact ⟨d, ds', rfl⟩
    have hdd : d.isDigit = true := hds d (by simp)
    have hnd : ∀ c, c.isDigit = false → d ≠ c := by
      intro c hc e; subst e; rw [hdd] at hc; cases hc
    have hdrop : (blanks ++ (sign ++ (d :: ds' ++ r))).dropWhile CText.isSpace = sign ++ (d :: ds' ++ r) := by
      refine (dropWhile_app _ _ _ (fun c hc => (space_iff c).2 (hb c hc)) ?_).1
      intro c hc
      rcases hs with rfl | rfl | rfl
      · simp at hc; subst hc
        cases hsp : CText.isSpace d
        · rfl
        · rw [space_iff] at hsp
          simp only [List.mem_cons, List.not_mem_nil, or_false] at hsp
          rcases hsp with e | e | e | e | e | e <;> exact absurd e (hnd _ (by decide))
      · simp at hc; subst hc; decide
      · simp at hc; subst hc; decide
    have hdig := dropWhile_app Char.isDigit (d :: ds') r hds hr
    unfold CText.scanU
    dsimp only
    rw [hdrop]
    have hskip : (if ((sign ++ (d :: ds' ++ r)).head? == some '-' || (sign ++ (d :: ds' ++ r)).head? == some '+') = true then (sign ++ (d :: ds' ++ r)).drop 1 else sign ++ (d :: ds' ++ r)) = d :: ds' ++ r := by
      rcases hs with rfl | rfl | rfl
      · simp [hnd '-' (by decide), hnd '+' (by decide)]
      · simp
      · simp
    have hneg : ((sign ++ (d :: ds' ++ r)).head? == some '-') = decide (sign = ['-']) := by
      rcases hs with rfl | rfl | rfl
      · simp [hnd '-' (by decide)]
      · simp
      · simp
    rw [hskip, hdig.1, hdig.2, if_neg (by simp), hneg, value_eq]
    simp

theorem scanRange_iff (s : List Char) (a b : Nat) : Start.scanRange s = some (a, b) ↔ ReadsRange s a b := by
  unfold Start.scanRange ReadsRange
  constructor
  · intro h
    split at h
    · rename_i first t h1
      split at h
      · rename_i last r h2
        obtain ⟨rfl, rfl⟩ := Prod.mk.inj (Option.some.inj h)
        exact ⟨t, r, (scanU_iff _ _ _).1 h1, (scanU_iff _ _ _).1 h2⟩
      · cases h
    · cases h
  · rintro ⟨t, r, h1, h2⟩
    rw [← scanU_iff] at h1 h2
    simp only [h1, h2]

theorem atoi_numeral (blanks sign ds r : List Char) (hb : ∀ c ∈ blanks, c ∈ [' ', '\t', '\n', '\x0b', '\x0c', '\r']) (hs : sign = [] ∨ sign = ['-'] ∨ sign = ['+']) (hd : ds ≠ [])
    (hds : ∀ c ∈ ds, c.isDigit = true) (hr : ∀ c ∈ r.head?, c.isDigit = false) :
    Remote.atoi (blanks ++ (sign ++ (ds ++ r))) % 4294967296 =
      (if sign = ['-'] then - (min (Nat.ofDigitChars 10 ds 0) 9223372036854775808 : Nat) else (min (Nat.ofDigitChars 10 ds 0) 9223372036854775807 : Nat) : Int) % 4294967296 := by
  obtain ⟨d, ds', rfl⟩ : ∃ d ds', ds = d :: ds' := by
    cases ds with
    | nil => exact absurd rfl hd
    | cons d ds' => exact ⟨d, ds', rfl⟩
  have hdd : d.isDigit = true := hds d (by simp)
  have hnd : ∀ c, c.isDigit = false → d ≠ c := by
    intro c hc e; subst e; rw [hdd] at hc; cases hc
  have hdrop : (blanks ++ (sign ++ (d :: ds' ++ r))).dropWhile CText.isSpace = sign ++ (d :: ds' ++ r) := by
    refine (dropWhile_app _ _ _ (fun c hc => (space_iff c).2 (hb c hc)) ?_).1
    intro c hc
    rcases hs with rfl | rfl | rfl
    · simp at hc; subst hc
      cases hsp : CText.isSpace d
      · rfl
      · rw [space_iff] at hsp
        simp only [List.mem_cons, List.not_mem_nil, or_false] at hsp
        rcases hsp with e | e | e | e | e | e <;> exact absurd e (hnd _ (by decide))
    · simp at hc; subst hc; decide
    · simp at hc; subst hc; decide
  have hdig := dropWhile_app Char.isDigit (d :: ds') r hds hr
  unfold Remote.atoi
  dsimp only
  rw [hdrop]
  have hskip : (if ((sign ++ (d :: ds' ++ r)).head? == some '-' || (sign ++ (d :: ds' ++ r)).head? == some '+') = true then (sign ++ (d :: ds' ++ r)).drop 1 else sign ++ (d :: ds' ++ r)) = d :: ds' ++ r := by
    rcases hs with rfl | rfl | rfl
    · simp [hnd '-' (by decide), hnd '+' (by decide)]
    · simp
    · simp
  have hneg : ((sign ++ (d :: ds' ++ r)).head? == some '-') = decide (sign = ['-']) := by
    rcases hs with rfl | rfl | rfl
    · simp [hnd '-' (by decide)]
    · simp
    · simp
  rw [hskip, hdig.2, hneg]
  generalize Nat.ofDigitChars 10 (d :: ds') 0 = n
  by_cases hm : sign = ['-']
  · simp only [hm, decide_true, if_true]
    split <;> omega
  · simp only [hm, decide_false, if_false, Bool.false_eq_true]
    split <;> omega

theorem atoi_none (s : List Char) (h : ∀ v r, ¬ Numeral s v r) : Remote.atoi s = 0 := by
  have hn : CText.scanU s = none := by
    cases hs : CText.scanU s with
    | none => rfl
    | some vr => exact absurd ((scanU_iff s vr.1 vr.2).1 hs) (h _ _)
  unfold CText.scanU at hn
  unfold Remote.atoi
  simp only [ite_eq_left_iff, reduceCtorEq, imp_false, not_not] at hn
  dsimp only
  rw [hn]
  simp [Nat.ofDigitChars]

end Nfqlb.Numeral
