import Verif.Spec.Json

/-! The reader for JSON reads what is put together from texts that it reads. -/

set_option autoImplicit false

namespace Nfqlb.Spec.J

/-- No digit comes next. -/
def NumEnd (s : List Char) : Prop := ∀ c ∈ s.head?, c.isDigit = false

/-- Only white space. -/
def Ws (s : List Char) : Prop := ∀ c ∈ s, isWs c = true

/-- The text begins, after white space, with something else than a closing bracket or brace. -/
def Starts (s : List Char) : Prop := ∃ c t, skip s = c :: t ∧ c ≠ ']' ∧ c ≠ '}'

/-- The text is read as the value, whatever follows. -/
structure Reads (v : Json) (s : List Char) : Prop where
  starts : Starts s
  read : ∀ n rest, 2 * s.length + 1 ≤ n → NumEnd rest → value n (s ++ rest) = some (v, rest)

structure ElemsRead (vs : List Json) (s : List Char) : Prop where
  starts : Starts s
  read : ∀ n ws rest, 2 * s.length + 2 ≤ n → Ws ws → elements n (s ++ (ws ++ ']' :: rest)) = some (vs, rest)

structure MembersRead (ms : List (List Char × Json)) (s : List Char) : Prop where
  starts : Starts s
  read : ∀ n ws rest, 2 * s.length + 2 ≤ n → Ws ws → members n (s ++ (ws ++ '}' :: rest)) = some (ms, rest)

theorem skip_ws {ws s : List Char} (h : Ws ws) : skip (ws ++ s) = skip s := by
  unfold skip
  induction ws with
  | nil => rfl
  | cons c ws ih =>
    rw [List.cons_append, List.dropWhile_cons_of_pos (by exact h c (by simp))]
    exact ih (fun x hx => h x (by simp [hx]))

theorem skip_cons {c : Char} {s : List Char} (h : isWs c = false) : skip (c :: s) = c :: s := by
  unfold skip
  rw [List.dropWhile_cons_of_neg (by simp [h])]

theorem skip_append {s rest : List Char} {c : Char} {t : List Char} (h : skip s = c :: t) : skip (s ++ rest) = c :: t ++ rest := by
  unfold skip at h ⊢
  induction s with
  | nil => cases h
  | cons d s ih =>
    by_cases hd : isWs d = true
    · rw [List.dropWhile_cons_of_pos hd] at h
      rw [List.cons_append, List.dropWhile_cons_of_pos hd]
      exact ih h
    · rw [List.dropWhile_cons_of_neg hd] at h
      rw [List.cons_append, List.dropWhile_cons_of_neg hd]
      rw [← List.cons_append, h]

theorem starts_ws {ws s : List Char} (h : Ws ws) (hs : Starts s) : Starts (ws ++ s) := by
  obtain ⟨c, t, e, h1⟩ := hs
  exact ⟨c, t, by rw [skip_ws h, e], h1⟩

theorem starts_append {s t : List Char} (hs : Starts s) : Starts (s ++ t) := by
  obtain ⟨c, u, e, h1⟩ := hs
  exact ⟨c, u ++ t, by rw [skip_append e]; rfl, h1⟩

theorem numEnd_cons {c : Char} {s : List Char} (h : c.isDigit = false) : NumEnd (c :: s) := by
  intro d hd
  simp only [List.head?_cons, Option.mem_def, Option.some.injEq] at hd
  rw [← hd]; exact h

theorem isWs_digit {c : Char} (h : isWs c = true) : c.isDigit = false := by
  unfold isWs at h
  simp only [Bool.or_eq_true, beq_iff_eq] at h
  rcases h with ((rfl | rfl) | rfl) | rfl <;> rfl

theorem numEnd_ws {ws s : List Char} (h : Ws ws) (hs : NumEnd s) : NumEnd (ws ++ s) := by
  cases ws with
  | nil => exact hs
  | cons c ws => exact numEnd_cons (isWs_digit (h c (by simp)))

theorem string_read {t rest : List Char} (h : t.all plainChar = true) : string (t ++ '"' :: rest) = some (t, rest) := by
  unfold string
  have h' : ∀ c ∈ t, plainChar c = true := List.all_eq_true.mp h
  have e1 : (t ++ '"' :: rest).dropWhile plainChar = '"' :: rest := by
    rw [List.dropWhile_append_of_pos h', List.dropWhile_cons_of_neg (by decide)]
  have e2 : (t ++ '"' :: rest).takeWhile plainChar = t := by
    rw [List.takeWhile_append_of_pos h', List.takeWhile_cons_of_neg (by decide), List.append_nil]
  rw [e1, e2]
  rfl

theorem reads_ws {v : Json} {ws s : List Char} (h : Ws ws) (hs : Reads v s) : Reads v (ws ++ s) := by
  refine ⟨starts_ws h hs.starts, fun n rest hn hr => ?_⟩
  have hl : (ws ++ s).length = ws.length + s.length := List.length_append
  have := hs.read n rest (by omega) hr
  cases n with
  | zero => omega
  | succ n =>
    rw [List.append_assoc]
    unfold value at this ⊢
    rw [skip_ws h]
    exact this

theorem reads_str {t : List Char} (h : t.all plainChar = true) : Reads (.str t) ('"' :: (t ++ ['"'])) := by
  refine ⟨⟨'"', t ++ ['"'], skip_cons (by decide), by decide, by decide⟩, fun n rest hn _ => ?_⟩
  cases n with
  | zero => omega
  | succ n =>
    unfold value
    rw [List.cons_append, skip_cons (by decide)]
    simp only [List.append_assoc, List.cons_append, List.nil_append]
    rw [string_read h]
    rfl

theorem digits_head (n : Nat) : ∃ c t, Nat.toDigits 10 n = c :: t ∧ c.isDigit = true := by
  cases e : Nat.toDigits 10 n with
  | nil => exact absurd e Nat.toDigits_ne_nil
  | cons c t => exact ⟨c, t, rfl, Nat.isDigit_of_mem_toDigits (b := 10) (n := n) (by decide) (by decide) (by rw [e]; simp)⟩

theorem digit_notWs {c : Char} (h : c.isDigit = true) : isWs c = false := by
  cases hw : isWs c with
  | false => rfl
  | true => rw [isWs_digit hw] at h; cases h

theorem head_zero (n : Nat) (h : (Nat.toDigits 10 n).head? = some '0') : Nat.toDigits 10 n = ['0'] := by
  by_cases h0 : n < 10
  · have : ∀ n < 10, (Nat.toDigits 10 n).head? = some '0' → Nat.toDigits 10 n = ['0'] := by decide
    exact this n h0 h
  · exfalso
    induction n using Nat.strongRecOn with
    | ind n ih =>
      rw [Nat.toDigits_of_base_le (by decide) (by omega)] at h
      have hne : (Nat.toDigits 10 (n / 10) ++ [Nat.digitChar (n % 10)]).head? = (Nat.toDigits 10 (n / 10)).head? := by
        cases hc : Nat.toDigits 10 (n / 10) with
        | nil => exact absurd hc Nat.toDigits_ne_nil
        | cons c t => rfl
      rw [hne] at h
      by_cases h1 : n / 10 < 10
      · have : ∀ m, m < 10 → (Nat.toDigits 10 m).head? = some '0' → m = 0 := by decide
        have := this _ h1 h
        omega
      · exact ih (n / 10) (by omega) h h1

theorem number_read (n : Nat) (rest : List Char) (hr : NumEnd rest) : number (Nat.toDigits 10 n ++ rest) = some (n, rest) := by
  have hd : ∀ c ∈ Nat.toDigits 10 n, c.isDigit = true := fun c hc => Nat.isDigit_of_mem_toDigits (by decide) (by decide) hc
  have hrest : rest.takeWhile Char.isDigit = [] ∧ rest.dropWhile Char.isDigit = rest := by
    cases rest with
    | nil => exact ⟨rfl, rfl⟩
    | cons c r =>
      have := hr c (by simp)
      exact ⟨List.takeWhile_cons_of_neg (by simp [this]), List.dropWhile_cons_of_neg (by simp [this])⟩
  have e1 : (Nat.toDigits 10 n ++ rest).takeWhile Char.isDigit = Nat.toDigits 10 n := by
    rw [List.takeWhile_append_of_pos hd, hrest.1, List.append_nil]
  have e2 : (Nat.toDigits 10 n ++ rest).dropWhile Char.isDigit = rest := by
    rw [List.dropWhile_append_of_pos hd, hrest.2]
  unfold number
  dsimp only
  rw [e1, e2, if_neg]
  · rw [Nat.ofDigitChars_ten_toDigits]
  · rintro (h | ⟨h1, h2⟩)
    · exact Nat.toDigits_ne_nil h
    · exact h2 (head_zero n h1)

theorem reads_num (k : Nat) : Reads (.num k) (Nat.toDigits 10 k) := by
  obtain ⟨c, t, e, hc⟩ := digits_head k
  have hb : ∀ d : Char, d.isDigit = false → c ≠ d := by
    intro d hd hcd; rw [hcd, hd] at hc; cases hc
  refine ⟨⟨c, t, by rw [e]; exact skip_cons (digit_notWs hc), hb _ (by decide), hb _ (by decide)⟩, fun n rest hn hr => ?_⟩
  cases n with
  | zero => omega
  | succ n =>
    have := number_read k rest hr
    rw [e] at this ⊢
    unfold value
    rw [List.cons_append, skip_cons (digit_notWs hc)]
    rw [List.cons_append] at this
    have h1 := hb '"' (by decide)
    have h2 := hb '[' (by decide)
    have h3 := hb '{' (by decide)
    split
    · rename_i h; cases h; exact absurd rfl h1
    · rename_i h; cases h; exact absurd rfl h2
    · rename_i h; cases h; exact absurd rfl h3
    · rw [this]; rfl

theorem elements_last {n : Nat} {s r q : List Char} {v : Json} (h1 : value n s = some (v, r)) (h2 : skip r = ']' :: q) : elements (n + 1) s = some ([v], q) := by
  unfold elements
  simp only [h1, h2]

theorem elements_more {n : Nat} {s r q t : List Char} {v : Json} {vs : List Json} (h1 : value n s = some (v, r)) (h2 : skip r = ',' :: q) (h3 : elements n q = some (vs, t)) :
    elements (n + 1) s = some (v :: vs, t) := by
  unfold elements
  simp only [h1, h2, h3, Option.map_some]

theorem members_last {n : Nat} {s r1 r2 r3 r4 r5 k : List Char} {v : Json} (h1 : skip s = '"' :: r1) (h2 : string r1 = some (k, r2)) (h3 : skip r2 = ':' :: r3) (h4 : value n r3 = some (v, r4))
    (h5 : skip r4 = '}' :: r5) : members (n + 1) s = some ([(k, v)], r5) := by
  unfold members
  simp only [h1, h2, h3, h4, h5]

theorem members_more {n : Nat} {s r1 r2 r3 r4 r5 r6 k : List Char} {v : Json} {ms : List (List Char × Json)} (h1 : skip s = '"' :: r1) (h2 : string r1 = some (k, r2)) (h3 : skip r2 = ':' :: r3)
    (h4 : value n r3 = some (v, r4)) (h5 : skip r4 = ',' :: r5) (h6 : members n r5 = some (ms, r6)) : members (n + 1) s = some ((k, v) :: ms, r6) := by
  unfold members
  simp only [h1, h2, h3, h4, h5, h6, Option.map_some]

theorem elems_one {v : Json} {s : List Char} (h : Reads v s) : ElemsRead [v] s := by
  refine ⟨h.starts, fun n ws rest hn hw => ?_⟩
  cases n with
  | zero => omega
  | succ n =>
    exact elements_last (h.read n _ (by omega) (numEnd_ws hw (numEnd_cons (by decide)))) (by rw [skip_ws hw, skip_cons (by decide)])

theorem elems_cons {v : Json} {vs : List Json} {s t : List Char} (h : Reads v s) (ht : ElemsRead vs t) : ElemsRead (v :: vs) (s ++ ',' :: t) := by
  refine ⟨starts_append h.starts, fun n ws rest hn hw => ?_⟩
  rw [List.length_append, List.length_cons] at hn
  cases n with
  | zero => omega
  | succ n =>
    rw [List.append_assoc, List.cons_append]
    exact elements_more (h.read n _ (by omega) (numEnd_cons (by decide))) (skip_cons (by decide)) (ht.read n ws rest (by omega) hw)

theorem reads_arr_nil {w : List Char} (hw : Ws w) : Reads (.arr []) ('[' :: (w ++ [']'])) := by
  refine ⟨⟨'[', w ++ [']'], skip_cons (by decide), by decide, by decide⟩, fun n rest hn _ => ?_⟩
  cases n with
  | zero => omega
  | succ n =>
    have h1 : skip ('[' :: (w ++ [']']) ++ rest) = '[' :: (w ++ ']' :: rest) := by
      rw [List.cons_append, skip_cons (by decide), List.append_assoc, List.singleton_append]
    have h2 : skip (w ++ ']' :: rest) = ']' :: rest := by rw [skip_ws hw, skip_cons (by decide)]
    unfold value
    simp only [h1, h2]

theorem starts_skip {s rest : List Char} (hs : Starts s) : ∃ c t, skip (s ++ rest) = c :: t ∧ c ≠ ']' ∧ c ≠ '}' := by
  obtain ⟨c, t, e, h⟩ := hs
  exact ⟨c, t ++ rest, by rw [skip_append e]; rfl, h⟩

theorem reads_arr {vs : List Json} {s w : List Char} (h : ElemsRead vs s) (hw : Ws w) : Reads (.arr vs) ('[' :: (s ++ (w ++ [']']))) := by
  refine ⟨⟨'[', _, skip_cons (by decide), by decide, by decide⟩, fun n rest hn _ => ?_⟩
  simp only [List.length_cons, List.length_append] at hn
  cases n with
  | zero => omega
  | succ n =>
    unfold value
    rw [List.cons_append, skip_cons (by decide)]
    simp only [List.append_assoc, List.singleton_append]
    obtain ⟨c, t, e, h1, h2⟩ := starts_skip (rest := w ++ ']' :: rest) h.starts
    rw [e]
    split
    · rename_i h3; cases h3; exact absurd rfl h1
    · rw [h.read n w rest (by omega) hw]
      rfl

theorem reads_obj {ms : List (List Char × Json)} {s w : List Char} (h : MembersRead ms s) (hw : Ws w) : Reads (.obj ms) ('{' :: (s ++ (w ++ ['}']))) := by
  refine ⟨⟨'{', _, skip_cons (by decide), by decide, by decide⟩, fun n rest hn _ => ?_⟩
  simp only [List.length_cons, List.length_append] at hn
  cases n with
  | zero => omega
  | succ n =>
    unfold value
    rw [List.cons_append, skip_cons (by decide)]
    simp only [List.append_assoc, List.singleton_append]
    obtain ⟨c, t, e, h1, h2⟩ := starts_skip (rest := w ++ '}' :: rest) h.starts
    rw [e]
    split
    · rename_i h3; cases h3; exact absurd rfl h2
    · rw [h.read n w rest (by omega) hw]
      rfl

/-- The text of a member. -/
def memberText (w k s : List Char) : List Char := w ++ '"' :: (k ++ '"' :: ':' :: s)

theorem member_starts {w k s : List Char} (hw : Ws w) : Starts (memberText w k s) :=
  starts_ws hw ⟨'"', _, skip_cons (by decide), by decide, by decide⟩

theorem members_one {w k s : List Char} {v : Json} (hw : Ws w) (hk : k.all plainChar = true) (h : Reads v s) : MembersRead [(k, v)] (memberText w k s) := by
  refine ⟨member_starts hw, fun n ws rest hn hws => ?_⟩
  unfold memberText at hn ⊢
  simp only [List.length_cons, List.length_append] at hn
  cases n with
  | zero => omega
  | succ n =>
    simp only [List.append_assoc, List.cons_append]
    exact members_last (by rw [skip_ws hw, skip_cons (by decide)]) (string_read hk) (skip_cons (by decide)) (h.read n _ (by omega) (numEnd_ws hws (numEnd_cons (by decide))))
      (by rw [skip_ws hws, skip_cons (by decide)])

theorem members_cons {w k s t : List Char} {v : Json} {ms : List (List Char × Json)} (hw : Ws w) (hk : k.all plainChar = true) (h : Reads v s) (ht : MembersRead ms t) :
    MembersRead ((k, v) :: ms) (memberText w k s ++ ',' :: t) := by
  refine ⟨starts_append (member_starts hw), fun n ws rest hn hws => ?_⟩
  unfold memberText at hn ⊢
  simp only [List.length_cons, List.length_append] at hn
  cases n with
  | zero => omega
  | succ n =>
    simp only [List.append_assoc, List.cons_append]
    exact members_more (by rw [skip_ws hw, skip_cons (by decide)]) (string_read hk) (skip_cons (by decide)) (h.read n _ (by omega) (numEnd_cons (by decide))) (skip_cons (by decide))
      (ht.read n ws rest (by omega) hws)

theorem parse_reads {v : Json} {s w : List Char} (h : Reads v s) (hw : Ws w) : parse (s ++ w) = some v := by
  unfold parse
  have hl : (s ++ w).length = s.length + w.length := List.length_append
  have hne : NumEnd w := by
    have := numEnd_ws (s := []) hw (by intro c hc; simp at hc)
    simpa using this
  rw [h.read _ w (by omega) hne]
  dsimp only
  have : skip w = [] := by
    have := skip_ws (s := []) hw
    simpa [skip] using this
  rw [if_pos this]

end Nfqlb.Spec.J
