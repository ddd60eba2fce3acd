import Verif.Proof.RangeOps

/-! Printing and parsing of range sets. -/

set_option autoImplicit false

namespace Nfqlb.RS

open Nfqlb.Spec.RS Tree

/-- `printTree` for the ranges of the tree from left to right. -/
def printL (size : Nat) : List (Nat × Nat) → Nat → List Char → Res (Option Nat × List Char)
  | [], pos, out => .ok (some pos, out)
  | r :: l, pos, out =>
    let len := if pos ≤ size then u32 (size - pos) else u32 (4294967296 - u32 (pos - size))
    if len < 3 then .ok (none, out)
    else do
      let (pos, out) ← emit size len pos out (showRange r)
      printL size l pos out

theorem printL_append (size : Nat) : ∀ (l m : List (Nat × Nat)) (pos : Nat) (out : List Char), printL size (l ++ m) pos out = (do
    let (p, out) ← printL size l pos out
    match p with
    | none => return (none, out)
    | some pos => printL size m pos out)
  | [], m, pos, out => rfl
  | r :: l, m, pos, out => by
    simp only [List.cons_append, printL]
    generalize (if pos ≤ size then u32 (size - pos) else u32 (4294967296 - u32 (pos - size))) = len
    split
    · rfl
    · cases he : emit size _ pos out (showRange r) with
      | ok p =>
        obtain ⟨p1, o1⟩ := p
        simp only [Res.ok_bind]
        exact printL_append size l m p1 o1
      | die => rfl
      | ub => rfl
      | hang => rfl

theorem text_eq (r : Nat × Nat) : (if r.1 = r.2 then CText.dec r.1 ++ [','] else CText.dec r.1 ++ ['-'] ++ CText.dec r.2 ++ [',']) = showRange r := by
  unfold showRange CText.dec
  split <;> rfl

theorem Rep.print {h : Heap} (size : Nat) : ∀ {t : Tree} {p : Option Nat} {fuel : Nat}, Rep h p t → depth t ≤ fuel → ∀ (pos : Nat) (out : List Char),
    printTree h size fuel p pos out = printL size (vals t) pos out
  | .leaf, p, fuel, hr, _, pos, out => by
    simp only [Rep] at hr
    subst hr
    cases fuel <;> rfl
  | .node b r tl tr, p, fuel, ⟨hp, pl, pr, hn, h1, h2⟩, hd, pos, out => by
    subst hp
    simp only [depth] at hd
    cases fuel with
    | zero => omega
    | succ fuel =>
      have e1 := h1.print size (fuel := fuel) (by omega) pos out
      have e2 := h2.print size (fuel := fuel) (by omega)
      rw [vals, printL_append]
      simp only [printTree, get, hn, Res.ok_bind, e1]
      cases he : printL size (vals tl) pos out with
      | ok p =>
        obtain ⟨p1, o1⟩ := p
        cases p1 with
        | none => rfl
        | some pos =>
          simp only [Res.ok_bind, printL]
          rw [text_eq r]
          generalize (if pos ≤ size then u32 (size - pos) else u32 (4294967296 - u32 (pos - size))) = len
          split
          · rfl
          · cases hem : emit size _ pos o1 (showRange r) with
            | ok q => obtain ⟨q1, q2⟩ := q; simp only [Res.ok_bind]; exact e2 q1 q2
            | die => rfl
            | ub => rfl
            | hang => rfl
      | die => rfl
      | ub => rfl
      | hang => rfl

theorem showRange_length (r : Nat × Nat) : 2 ≤ (showRange r).length := by
  have h1 : 0 < (Nat.toDigits 10 r.1).length := Nat.length_toDigits_pos
  unfold showRange
  split
  · simp only [List.length_append, List.length_cons, List.length_nil]; omega
  · simp only [List.length_append, List.length_cons, List.length_nil]; omega

theorem printL_fits (size : Nat) (hs : size ≤ 4294967295) : ∀ (l : List (Nat × Nat)) (pos : Nat) (out : List Char), pos + (showRanges l).length < size →
    printL size l pos out = .ok (some (pos + (showRanges l).length), out ++ showRanges l)
  | [], pos, out, _ => by simp [printL, showRanges]
  | r :: l, pos, out, h => by
    have hlen : (showRanges (r :: l)).length = (showRange r).length + (showRanges l).length := by simp [showRanges]
    have h2 := showRange_length r
    rw [hlen] at h
    simp only [printL]
    have hp : pos ≤ size := by omega
    rw [if_pos hp]
    have hu : u32 (size - pos) = size - pos := by unfold u32; rw [Nat.mod_eq_of_lt (by omega)]
    rw [hu, if_neg (by omega)]
    unfold emit
    rw [if_neg (by omega)]
    simp only [Res.ok_bind]
    rw [printL_fits size hs l _ _ (by omega), List.take_of_length_le (by omega), hlen]
    simp only [showRanges, List.flatMap_cons, List.append_assoc]
    congr 3
    omega

theorem printL_safe (size : Nat) (hs : size ≤ 4294967295) : ∀ (l : List (Nat × Nat)) (pos : Nat) (out : List Char), pos + (showRanges l.dropLast).length ≤ size →
    ∃ r, printL size l pos out = .ok r
  | [], pos, out, _ => ⟨_, rfl⟩
  | [r], pos, out, h => by
    simp only [List.dropLast_singleton, showRanges, List.flatMap_nil, List.length_nil] at h
    have h2 := showRange_length r
    simp only [printL]
    have hp : pos ≤ size := by omega
    rw [if_pos hp]
    have hu : u32 (size - pos) = size - pos := by unfold u32; rw [Nat.mod_eq_of_lt (by omega)]
    rw [hu]
    split
    · exact ⟨_, rfl⟩
    · unfold emit
      rw [if_neg (by omega)]
      exact ⟨_, rfl⟩
  | r :: s :: l, pos, out, h => by
    have hlen : (showRanges (r :: s :: l).dropLast).length = (showRange r).length + (showRanges (s :: l).dropLast).length := by
      simp [showRanges]
    rw [hlen] at h
    have h2 := showRange_length r
    simp only [printL]
    have hp : pos ≤ size := by omega
    rw [if_pos hp]
    have hu : u32 (size - pos) = size - pos := by unfold u32; rw [Nat.mod_eq_of_lt (by omega)]
    rw [hu]
    split
    · exact ⟨_, rfl⟩
    · unfold emit
      rw [if_neg (by omega)]
      simp only [Res.ok_bind]
      exact printL_safe size hs (s :: l) _ _ (by omega)

theorem showRange_max {r : Nat × Nat} (h : r.1 ≤ 4294967295 ∧ r.2 ≤ 4294967295) : (showRange r).length ≤ 22 := by
  have h1 : (Nat.toDigits 10 r.1).length ≤ 10 := (Nat.length_toDigits_le_iff (by omega) (by omega)).2 (by omega)
  have h2 : (Nat.toDigits 10 r.2).length ≤ 10 := (Nat.length_toDigits_le_iff (by omega) (by omega)).2 (by omega)
  unfold showRange
  split
  · simp only [List.length_append, List.length_cons, List.length_nil]; omega
  · simp only [List.length_append, List.length_cons, List.length_nil]; omega

theorem printL_or (size : Nat) : ∀ (l : List (Nat × Nat)) (pos : Nat) (out : List Char), printL size l pos out = .ub ∨ ∃ r, printL size l pos out = .ok r
  | [], pos, out => by simp [printL]
  | r :: l, pos, out => by
    simp only [printL]
    generalize (if pos ≤ size then u32 (size - pos) else u32 (4294967296 - u32 (pos - size))) = len
    by_cases h3 : len < 3
    · rw [if_pos h3]; exact .inr ⟨_, rfl⟩
    · rw [if_neg h3]
      unfold emit
      split
      · exact .inl rfl
      · exact printL_or size l _ _

/-- Exactly when something is written outside the buffer: a range that is not the last one does not fit, though there is room for three characters. -/
theorem printL_ub (size : Nat) (hs : size ≤ 4294967295) : ∀ (l : List (Nat × Nat)) (pos : Nat) (out : List Char), Unsigned l → pos ≤ size →
    (printL size l pos out = .ub ↔ ∃ l1 r l2, l = l1 ++ r :: l2 ∧ l2 ≠ [] ∧ pos + (showRanges l1).length + 3 ≤ size ∧ size < pos + (showRanges l1).length + (showRange r).length)
  | [], pos, out, _, _ => by simp [printL]
  | r :: l, pos, out, hu, hp => by
    have h2 := showRange_length r
    have hu32 : u32 (size - pos) = size - pos := by unfold u32; rw [Nat.mod_eq_of_lt (by omega)]
    have hr : (showRange r).length ≤ 22 := showRange_max (hu r (by simp))
    simp only [printL]
    rw [if_pos hp, hu32]
    by_cases h3 : size - pos < 3
    · rw [if_pos h3]
      refine ⟨fun h => (by cases h), ?_⟩
      rintro ⟨l1, x, l2, _, _, h, _⟩
      omega
    · rw [if_neg h3]
      unfold emit
      rw [if_neg (by omega)]
      simp only [Res.ok_bind]
      by_cases hfit : pos + (showRange r).length ≤ size
      · rw [printL_ub size hs l _ _ (fun x hx => hu x (by simp [hx])) hfit]
        constructor
        · rintro ⟨l1, x, l2, rfl, hn, e1, e2⟩
          refine ⟨r :: l1, x, l2, rfl, hn, ?_, ?_⟩ <;> (simp only [showRanges, List.flatMap_cons, List.length_append] at *; omega)
        · rintro ⟨l1, x, l2, e, hn, e1, e2⟩
          cases l1 with
          | nil =>
            simp only [List.nil_append, List.cons.injEq] at e
            obtain ⟨rfl, rfl⟩ := e
            simp only [showRanges, List.flatMap_nil, List.length_nil] at e2
            omega
          | cons y l1 =>
            simp only [List.cons_append, List.cons.injEq] at e
            obtain ⟨rfl, rfl⟩ := e
            refine ⟨l1, x, l2, rfl, hn, ?_, ?_⟩ <;> (simp only [showRanges, List.flatMap_cons, List.length_append] at *; omega)
      · cases l with
        | nil =>
          simp only [printL]
          refine ⟨fun h => (by cases h), ?_⟩
          rintro ⟨l1, x, l2, e, hn, _⟩
          cases l1 with
          | nil => simp only [List.nil_append, List.cons.injEq] at e; exact absurd e.2.symm hn
          | cons y l1 => simp at e
        | cons y l =>
          have key : printL size (y :: l) (pos + (showRange r).length) (out ++ (showRange r).take (size - pos - 1)) = .ub := by
            simp only [printL]
            rw [if_neg (show ¬ pos + (showRange r).length ≤ size by omega)]
            have e1 : u32 (pos + (showRange r).length - size) = pos + (showRange r).length - size := by unfold u32; rw [Nat.mod_eq_of_lt (by omega)]
            have e2 : u32 (4294967296 - (pos + (showRange r).length - size)) = 4294967296 - (pos + (showRange r).length - size) := by unfold u32; rw [Nat.mod_eq_of_lt (by omega)]
            rw [e1, e2, if_neg (by omega)]
            unfold emit
            rw [if_pos (by omega)]
            rfl
          rw [key]
          refine ⟨fun _ => ⟨[], r, y :: l, rfl, by simp, ?_, ?_⟩, fun _ => rfl⟩ <;> simp [showRanges] <;> omega

theorem Inv.string {h : Heap} {t : RangeSet} {T A : Tree} (H : Inv h t T A) (len : Nat) (hl : 0 < len) :
    rangeSetString h t len = (do
      let (p, out) ← printL len (vals T) 0 []
      match p with
      | none => return (1, out)
      | some _ => return (0, out)) := by
  unfold rangeSetString
  cases hr : t.root with
  | none =>
    have := H.rt
    rw [hr] at this
    cases T with
    | leaf =>
      simp only [vals, printL, Res.ok_bind, Res.pure_eq]
      rw [if_neg (by omega)]
    | node a r tl tr => cases this.1
  | some a =>
    have := H.rt
    rw [hr] at this
    simp only
    rw [this.print len (by have := H.depthT; omega)]
    rcases printL len (vals T) 0 [] with ⟨p, o⟩ | _ | _ | _
    · cases p <;> rfl
    · rfl
    · rfl
    · rfl

/-! ### Parsing -/

/-- The text of a range without the comma. -/
def item (r : Nat × Nat) : List Char := if r.1 = r.2 then Nat.toDigits 10 r.1 else Nat.toDigits 10 r.1 ++ ['-'] ++ Nat.toDigits 10 r.2

theorem digits_isDigit {n : Nat} {c : Char} (h : c ∈ Nat.toDigits 10 n) : c.isDigit = true := Nat.isDigit_of_mem_toDigits (by decide) (by decide) h

theorem isDigit_ne {c d : Char} (h : c.isDigit = true) (hd : d.isDigit = false) : c ≠ d := by
  rintro rfl
  rw [h] at hd
  cases hd

theorem takeWhile_digits (n : Nat) (rest : List Char) (hr : ∀ c ∈ rest.head?, c.isDigit = false) :
    (Nat.toDigits 10 n ++ rest).takeWhile Char.isDigit = Nat.toDigits 10 n ∧ (Nat.toDigits 10 n ++ rest).dropWhile Char.isDigit = rest := by
  have h1 : ∀ c ∈ Nat.toDigits 10 n, c.isDigit = true := fun c hc => digits_isDigit hc
  have h2 : rest.takeWhile Char.isDigit = [] ∧ rest.dropWhile Char.isDigit = rest := by
    cases rest with
    | nil => simp
    | cons c rest =>
      have := hr c (by simp)
      simp [this]
  constructor
  · rw [List.takeWhile_append_of_pos h1, h2.1, List.append_nil]
  · rw [List.dropWhile_append_of_pos h1, h2.2]

theorem scanU_digits (n : Nat) (hn : n ≤ 4294967295) (rest : List Char) (hr : ∀ c ∈ rest.head?, c.isDigit = false) : CText.scanU (Nat.toDigits 10 n ++ rest) = some (n, rest) := by
  obtain ⟨c, cs, hc⟩ : ∃ c cs, Nat.toDigits 10 n = c :: cs := by
    cases h : Nat.toDigits 10 n with
    | nil => exact absurd h Nat.toDigits_ne_nil
    | cons c cs => exact ⟨c, cs, rfl⟩
  have hcd : c.isDigit = true := digits_isDigit (n := n) (by rw [hc]; simp)
  have hsp : CText.isSpace c = false := by
    unfold CText.isSpace
    simp only [Bool.or_eq_false_iff, beq_eq_false_iff_ne, ne_eq]
    refine ⟨⟨⟨⟨⟨?_, ?_⟩, ?_⟩, ?_⟩, ?_⟩, ?_⟩ <;> exact isDigit_ne hcd (by decide)
  have hdrop : (Nat.toDigits 10 n ++ rest).dropWhile CText.isSpace = Nat.toDigits 10 n ++ rest := by
    rw [hc, List.cons_append, List.dropWhile_cons_of_neg (by simp [hsp])]
  have hhead : (Nat.toDigits 10 n ++ rest).head? = some c := by rw [hc]; rfl
  obtain ⟨t1, t2⟩ := takeWhile_digits n rest hr
  have hm : (some c == some '-') = false := by
    simp only [beq_eq_false_iff_ne, ne_eq, Option.some.injEq]
    exact isDigit_ne hcd (by decide)
  have hp : (some c == some '+') = false := by
    simp only [beq_eq_false_iff_ne, ne_eq, Option.some.injEq]
    exact isDigit_ne hcd (by decide)
  unfold CText.scanU
  simp only [hdrop, hhead, hm, hp, Bool.or_self, Bool.false_eq_true, if_false, t1, t2]
  rw [if_neg (by rw [hc]; simp), Nat.ofDigitChars_ten_toDigits, if_neg (by omega)]
  simp only [u32]
  rw [Nat.mod_eq_of_lt (by omega)]

theorem item_chars {r : Nat × Nat} {c : Char} (h : c ∈ item r) : c.isDigit = true ∨ c = '-' := by
  unfold item at h
  split at h
  · exact .inl (digits_isDigit h)
  · simp only [List.mem_append, List.mem_cons, List.not_mem_nil, or_false] at h
    rcases h with (h | h) | h
    · exact .inl (digits_isDigit h)
    · exact .inr h
    · exact .inl (digits_isDigit h)

theorem item_ne (r : Nat × Nat) : item r ≠ [] := by
  unfold item
  split
  · exact Nat.toDigits_ne_nil
  · simp

theorem tokensAux_run (seps : List Char) : ∀ (x cur s : List Char), (∀ c ∈ x, c ∉ seps) → CText.tokensAux seps cur (x ++ s) = CText.tokensAux seps (x.reverse ++ cur) s
  | [], cur, s, _ => rfl
  | c :: x, cur, s, h => by
    rw [List.cons_append, CText.tokensAux, if_neg (h c (by simp)), tokensAux_run seps x _ s (fun d hd => h d (by simp [hd]))]
    simp

theorem tokens_show : ∀ (l : List (Nat × Nat)), CText.tokens [',', ' '] (showRanges l) = l.map item
  | [] => rfl
  | r :: l => by
    have hs : showRange r = item r ++ [','] := rfl
    have ih := tokens_show l
    unfold CText.tokens at ih ⊢
    rw [showRanges, List.flatMap_cons, hs, List.append_assoc, tokensAux_run]
    · rw [List.append_nil, List.cons_append, CText.tokensAux, if_pos (by simp), if_neg (by simpa using item_ne r), List.reverse_reverse, List.nil_append, List.map_cons]
      exact congrArg _ ih
    · intro c hc
      have hd : c ≠ ',' ∧ c ≠ ' ' := by
        rcases item_chars hc with h | h
        · exact ⟨isDigit_ne h (by decide), isDigit_ne h (by decide)⟩
        · subst h; decide
      simp [hd]

theorem addOne_item (h : Heap) (t : RangeSet) (r : Nat × Nat) (hr : r.1 ≤ r.2) (hb : r.2 ≤ 4294967295) : rangeSetAddOneStr h t (item r) = rangeSetAdd h t r.1 r.2 := by
  unfold rangeSetAddOneStr item
  by_cases he : r.1 = r.2
  · rw [if_pos he, if_neg]
    · have := scanU_digits r.1 (by omega) [] (by simp)
      rw [List.append_nil] at this
      rw [this, he]
    · intro hc
      exact absurd rfl (isDigit_ne (digits_isDigit hc) (d := '-') (by decide))
  · rw [if_neg he, if_pos (by simp)]
    have e1 := scanU_digits r.1 (by omega) ('-' :: Nat.toDigits 10 r.2) (by simp)
    have e2 := scanU_digits r.2 hb [] (by simp)
    rw [List.append_nil] at e2
    have : Nat.toDigits 10 r.1 ++ ['-'] ++ Nat.toDigits 10 r.2 = Nat.toDigits 10 r.1 ++ '-' :: Nat.toDigits 10 r.2 := by simp
    rw [this, e1]
    simp only [e2]
    rw [if_neg (by omega)]

theorem add_allowed {h : Heap} {t : RangeSet} {r : Nat × Nat} (ha : Allowed t.lowest t.highest r) :
    ∃ h' t', rangeSetAdd h t r.1 r.2 = (h', t', 0) ∧ t'.lowest = t.lowest ∧ t'.highest = t.highest := by
  obtain ⟨a1, a2, a3⟩ := ha
  unfold rangeSetAdd
  rw [if_neg (by omega), if_neg (by omega), if_neg (by omega)]
  exact ⟨_, _, rfl, rfl, rfl⟩

theorem addToks_items : ∀ (l : List (Nat × Nat)) (h : Heap) (t : RangeSet), (∀ r ∈ l, Allowed t.lowest t.highest r) → t.highest ≤ 4294967295 →
    addToks h t (l.map item) = ((addAll h t l).1, (addAll h t l).2.1, 0)
  | [], h, t, _, _ => rfl
  | r :: l, h, t, ha, hh => by
    have har := ha r (by simp)
    obtain ⟨h1, t1, e1, l1, u1⟩ := add_allowed (h := h) har
    have ih := addToks_items l h1 t1 (fun s hs => by rw [l1, u1]; exact ha s (by simp [hs])) (by rw [u1]; exact hh)
    simp only [List.map_cons, addToks, addOne_item h t r har.1 (by have := har.2.2; omega), e1, addAll]
    rw [if_neg (by simp), ih]

end Nfqlb.RS
