import Verif.Proof.Argv
import Verif.Spec.RemoteCmd

/-! The reader of control requests. -/

set_option autoImplicit false

namespace Nfqlb.Remote

open Nfqlb Nfqlb.Spec.Argv Nfqlb.Spec.Rem Nfqlb.Argv

theorem readLoop_eq (s : List Char) (c : FlowCmd) (m : Mem) : readLoop s c m = match fgets 1024 s with
    | none => .ok ⟨-1, (freeFlowCmd c m).1, (freeFlowCmd c m).2, s⟩
    | some (raw, rest) =>
      match doLine c m (trimLine raw) with
      | .ok .eoc => .ok ⟨0, c, m, rest⟩
      | .ok .bad => .ok ⟨-1, (freeFlowCmd c m).1, (freeFlowCmd c m).2, rest⟩
      | .ok (.next c m) => readLoop rest c m
      | .die => .die
      | .ub => .ub
      | .hang => .hang := by
  rw [readLoop]
  split
  · rename_i h; rw [h]
  · rename_i h; rw [h]; rfl

/-! ### Lines -/

theorem fgetsAux_line : ∀ (n : Nat) (l rest : List Char), '\n' ∉ l → l.length < n → fgetsAux n (l ++ '\n' :: rest) = (l ++ ['\n'], rest)
  | n + 1, [], rest, _, _ => by simp [fgetsAux]
  | n + 1, c :: l, rest, h, hl => by
    rw [List.cons_append, fgetsAux]
    have hc : c ≠ '\n' := fun e => h (by simp [e])
    rw [if_neg hc, fgetsAux_line n l rest (fun e => h (by simp [e])) (by simp at hl; omega)]
    rfl

theorem takeWhile_clean (x : Char) (l r : List Char) (h : x ∉ l) (hr : r = [] ∨ ∃ r', r = x :: r') : (l ++ r).takeWhile (fun c => c != x) = l := by
  induction l with
  | nil => rcases hr with rfl | ⟨r', rfl⟩ <;> simp
  | cons c l ih =>
    have hc : (c != x) = true := by simp only [bne_iff_ne]; exact fun e => h (by simp [e])
    rw [List.cons_append, List.takeWhile_cons, if_pos hc, ih (fun e => h (by simp [e]))]

theorem dropWhile_clean (x : Char) (l r : List Char) (h : x ∉ l) : (l ++ x :: r).dropWhile (fun c => c != x) = x :: r := by
  induction l with
  | nil => simp
  | cons c l ih =>
    have hc : (c != x) = true := by simp only [bne_iff_ne]; exact fun e => h (by simp [e])
    rw [List.cons_append, List.dropWhile_cons, if_pos hc, ih (fun e => h (by simp [e]))]

theorem trimLine_line (l : List Char) (h : Clean l) : trimLine (l ++ ['\n']) = l := by
  unfold trimLine
  have h0 : (l ++ ['\n']).takeWhile (fun c => c != '\x00') = l ++ ['\n'] := by
    have := takeWhile_clean '\x00' (l ++ ['\n']) [] (by simp [h.2]) (.inl rfl)
    simpa using this
  rw [h0]
  exact takeWhile_clean '\n' l ['\n'] h.1 (.inr ⟨[], rfl⟩)

/-- A line that fits. -/
theorem readLoop_line (l rest : List Char) (c : FlowCmd) (m : Mem) (h : Clean l) (hl : l.length ≤ 1022) :
    readLoop (l ++ '\n' :: rest) c m = match doLine c m l with
      | .ok .eoc => .ok ⟨0, c, m, rest⟩
      | .ok .bad => .ok ⟨-1, (freeFlowCmd c m).1, (freeFlowCmd c m).2, rest⟩
      | .ok (.next c m) => readLoop rest c m
      | .die => .die
      | .ub => .ub
      | .hang => .hang := by
  rw [readLoop_eq]
  have e : fgets 1024 (l ++ '\n' :: rest) = some (l ++ ['\n'], rest) := by
    unfold fgets
    rw [if_neg (by simp), fgetsAux_line 1023 l rest h.1 (by omega)]
  rw [e]
  dsimp only
  rw [trimLine_line l h]

theorem doLine_field (c : FlowCmd) (m : Mem) (name arg : List Char) (hn : ':' ∉ name) (he : (name ++ ':' :: arg).take 4 ≠ "eoc:".toList) :
    doLine c m (name ++ ':' :: arg) = (do let x ← setField c m name arg; return .next x.1 x.2) := by
  unfold doLine
  rw [if_neg he]
  have e1 : CText.strchr ':' (name ++ ':' :: arg) = some (':' :: arg) := by
    unfold CText.strchr
    rw [dropWhile_clean ':' name arg hn]
  rw [e1, takeWhile_clean ':' name (':' :: arg) hn (.inr ⟨arg, rfl⟩)]
  rfl

/-- A line with one of the names. -/
theorem readLoop_field {name : String} {arg : List Char} {c c' : FlowCmd} {m m' : Mem} (rest : List Char) (ha : Clean arg) (hl : arg.length ≤ 1010)
    (hn : ':' ∉ name.toList ∧ Clean name.toList ∧ name.toList.length ≤ 10 ∧ (name.toList ++ [':', 'x', 'x', 'x']).take 3 ≠ "eoc".toList)
    (hs : setField c m name.toList arg = .ok (c', m')) :
    readLoop (outLine name arg ++ rest) c m = readLoop rest c' m' := by
  have e : outLine name arg ++ rest = (name.toList ++ ':' :: arg) ++ '\n' :: rest := by simp [outLine]
  obtain ⟨h1, h2, h3, h4⟩ := hn
  have he : (name.toList ++ ':' :: arg).take 4 ≠ "eoc:".toList := by
    intro e
    apply h4
    match hx : name.toList with
    | [] => rw [hx] at e; simp at e
    | [a] => rw [hx] at e; simp at e
    | [a, b] => rw [hx] at e; simp at e
    | a :: b :: d :: t =>
      rw [hx] at e
      have := congrArg (List.take 3) e
      rw [List.take_take] at this
      simpa using this
  have hcl : Clean (name.toList ++ ':' :: arg) := by
    constructor
    · simp [h2.1, ha.1]
    · simp [h2.2, ha.2]
  rw [e, readLoop_line _ rest c m hcl (by simp; omega), doLine_field c m _ _ h1 he, hs]
  rfl

/-- The last line. -/
theorem readLoop_eoc (rest : List Char) (c : FlowCmd) (m : Mem) : readLoop (outLine "eoc" [] ++ rest) c m = .ok ⟨0, c, m, rest⟩ := by
  have e : outLine "eoc" [] ++ rest = "eoc:".toList ++ '\n' :: rest := by simp [outLine]
  rw [e, readLoop_line _ rest c m ⟨by decide, by decide⟩ (by decide)]
  rfl

/-! ### Fields -/

theorem set_action (c : FlowCmd) (m : Mem) (arg : List Char) (h : c.action = none) : setField c m "action".toList arg = .ok ({ c with action := some arg }, m.alloc) := by
  rw [setField, if_pos rfl, h]; rfl

theorem set_name (c : FlowCmd) (m : Mem) (arg : List Char) (h : c.name = none) : setField c m "name".toList arg = .ok ({ c with name := some arg }, m.alloc) := by
  rw [setField, if_neg (by decide), if_pos rfl, h]; rfl

theorem set_target (c : FlowCmd) (m : Mem) (arg : List Char) (h : c.target = none) : setField c m "target".toList arg = .ok ({ c with target := some arg }, m.alloc) := by
  rw [setField, if_neg (by decide), if_neg (by decide), if_pos rfl, h]; rfl

theorem set_priority (c : FlowCmd) (m : Mem) (arg : List Char) : setField c m "priority".toList arg = .ok ({ c with priority := atoi arg }, m) := by
  rw [setField, if_neg (by decide), if_neg (by decide), if_neg (by decide), if_pos rfl]

theorem set_protocols (c : FlowCmd) (m : Mem) (arg : List Char) : setField c m "protocols".toList arg =
    (do let r ← listField c.protocols arg ", ".toList m; return ({ c with protocols := r.1 }, r.2)) := by
  rw [setField, if_neg (by decide), if_neg (by decide), if_neg (by decide), if_neg (by decide), if_pos rfl]

theorem set_dports (c : FlowCmd) (m : Mem) (arg : List Char) (h : c.dports = none) : setField c m "dports".toList arg = .ok ({ c with dports := some arg }, m.alloc) := by
  rw [setField, if_neg (by decide), if_neg (by decide), if_neg (by decide), if_neg (by decide), if_neg (by decide), if_pos rfl, h]; rfl

theorem set_sports (c : FlowCmd) (m : Mem) (arg : List Char) (h : c.sports = none) : setField c m "sports".toList arg = .ok ({ c with sports := some arg }, m.alloc) := by
  rw [setField, if_neg (by decide), if_neg (by decide), if_neg (by decide), if_neg (by decide), if_neg (by decide), if_neg (by decide), if_pos rfl, h]; rfl

theorem set_dsts (c : FlowCmd) (m : Mem) (arg : List Char) : setField c m "dsts".toList arg =
    (do let r ← listField c.dsts arg ", ".toList m; return ({ c with dsts := r.1 }, r.2)) := by
  rw [setField, if_neg (by decide), if_neg (by decide), if_neg (by decide), if_neg (by decide), if_neg (by decide), if_neg (by decide), if_neg (by decide), if_pos rfl]

theorem set_srcs (c : FlowCmd) (m : Mem) (arg : List Char) : setField c m "srcs".toList arg =
    (do let r ← listField c.srcs arg ", ".toList m; return ({ c with srcs := r.1 }, r.2)) := by
  rw [setField, if_neg (by decide), if_neg (by decide), if_neg (by decide), if_neg (by decide), if_neg (by decide), if_neg (by decide), if_neg (by decide), if_neg (by decide), if_pos rfl]

theorem set_match (c : FlowCmd) (m : Mem) (arg : List Char) : setField c m "match".toList arg =
    (do let r ← listField c.mtch arg ",".toList m; return ({ c with mtch := r.1 }, r.2)) := by
  rw [setField, if_neg (by decide), if_neg (by decide), if_neg (by decide), if_neg (by decide), if_neg (by decide), if_neg (by decide), if_neg (by decide), if_neg (by decide), if_neg (by decide), if_pos rfl]

theorem set_udpencap (c : FlowCmd) (m : Mem) (arg : List Char) : setField c m "udpencap".toList arg = .ok ({ c with udpencap := (atoi arg % 65536).toNat }, m) := by
  rw [setField, if_neg (by decide), if_neg (by decide), if_neg (by decide), if_neg (by decide), if_neg (by decide), if_neg (by decide), if_neg (by decide), if_neg (by decide), if_neg (by decide), if_neg (by decide), if_pos rfl]

/-! ### Numbers -/

theorem takeWhile_digits (n : Nat) : (Nat.toDigits 10 n).takeWhile Char.isDigit = Nat.toDigits 10 n := by
  have h : ∀ l : List Char, (∀ c ∈ l, c.isDigit = true) → l.takeWhile Char.isDigit = l := by
    intro l
    induction l with
    | nil => intro _; rfl
    | cons c l ih =>
      intro h
      rw [List.takeWhile_cons, if_pos (h c (by simp)), ih (fun x hx => h x (by simp [hx]))]
  exact h _ (fun c hc => Nat.isDigit_of_mem_toDigits (by decide) (by decide) hc)

theorem digits_head (n : Nat) : ∃ c r, Nat.toDigits 10 n = c :: r ∧ c.isDigit = true := by
  match h : Nat.toDigits 10 n with
  | [] => exact absurd h Nat.toDigits_ne_nil
  | c :: r =>
    refine ⟨c, r, rfl, ?_⟩
    exact Nat.isDigit_of_mem_toDigits (b := 10) (n := n) (by decide) (by decide) (by rw [h]; simp)

theorem digit_plain {c : Char} (h : c.isDigit = true) : CText.isSpace c = false ∧ c ≠ '-' ∧ c ≠ '+' := by
  refine ⟨?_, fun e => by subst e; exact absurd h (by decide), fun e => by subst e; exact absurd h (by decide)⟩
  cases hs : CText.isSpace c with
  | false => rfl
  | true =>
    unfold CText.isSpace at hs
    simp only [Bool.or_eq_true, beq_iff_eq] at hs
    rcases hs with ((((e | e) | e) | e) | e) | e <;> subst e <;> exact absurd h (by decide)

/-- Numbers are read as they are written. -/
theorem atoi_decimal (n : Int) (h1 : -2147483648 ≤ n) (h2 : n ≤ 2147483647) : atoi (decimal n) = n := by
  unfold atoi decimal
  obtain ⟨c, r, e, hc⟩ := digits_head n.natAbs
  obtain ⟨p1, p2, p3⟩ := digit_plain hc
  by_cases hn : n < 0
  · rw [if_pos hn]
    have hd : ('-' :: Nat.toDigits 10 n.natAbs).dropWhile CText.isSpace = '-' :: Nat.toDigits 10 n.natAbs := by
      rw [List.dropWhile_cons, if_neg (by decide)]
    rw [hd]
    simp only [List.head?_cons, List.drop_one, List.tail_cons]
    simp only [beq_self_eq_true, Bool.true_or, if_true]
    rw [takeWhile_digits, Nat.ofDigitChars_ten_toDigits]
    rw [Nat.min_eq_left (by omega)]
    split <;> omega
  · rw [if_neg hn]
    have hd : (Nat.toDigits 10 n.natAbs).dropWhile CText.isSpace = Nat.toDigits 10 n.natAbs := by
      rw [e, List.dropWhile_cons, if_neg (by rw [p1]; decide)]
    have hh : (Nat.toDigits 10 n.natAbs).head? = some c := by rw [e]; rfl
    rw [hd]
    dsimp only
    rw [hh]
    have q1 : (some c == some '-') = false := by simp [p2]
    have q2 : (some c == some '+') = false := by simp [p3]
    simp only [q1, q2, Bool.or_self, Bool.false_eq_true, if_false]
    rw [takeWhile_digits, Nat.ofDigitChars_ten_toDigits, Nat.min_eq_left (by omega)]
    split <;> omega

theorem digits_clean (n : Nat) : Clean (Nat.toDigits 10 n) := by
  constructor <;> intro h <;> exact absurd (Nat.isDigit_of_mem_toDigits (by decide) (by decide) h) (by decide)

theorem decimal_clean (n : Int) : Clean (decimal n) := by
  unfold decimal
  have := digits_clean n.natAbs
  split
  · exact ⟨by simp [this.1], by simp [this.2]⟩
  · exact this

theorem digits_length (n : Nat) (h : n < 10 ^ 10) : (Nat.toDigits 10 n).length ≤ 10 := by
  have := Nat.length_toDigits_le_iff (b := 10) (n := n) (k := 10) (by decide) (by decide)
  exact this.2 h

theorem decimal_length (n : Int) (h1 : -2147483648 ≤ n) (h2 : n ≤ 2147483647) : (decimal n).length ≤ 11 := by
  unfold decimal
  have := digits_length n.natAbs (by omega)
  split
  · simp only [List.length_cons]; omega
  · omega

end Nfqlb.Remote
