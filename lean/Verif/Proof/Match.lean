import Verif.Model.Match
import Verif.Spec.Match
import Verif.Proof.Regex
import Verif.Proof.Packet

/-! Byte-match expressions: what the parser accepts and what it makes of it. -/

set_option autoImplicit false

namespace Nfqlb.Match

open Nfqlb.Regex Nfqlb.Spec Nfqlb.Spec.BM Nfqlb.CText

/-! ### Syntax -/

theorem nbytes_char (c : Char) : (c == '1' || c == '2' || c == '4') = true ↔ ∃ n, (n = 1 ∨ n = 2 ∨ n = 4) ∧ c = Nat.digitChar n := by
  constructor
  · intro h
    simp only [Bool.or_eq_true, beq_iff_eq] at h
    rcases h with (h | h) | h
    · exact ⟨1, by simp, h⟩
    · exact ⟨2, by simp, h⟩
    · exact ⟨4, by simp, h⟩
  · rintro ⟨n, rfl | rfl | rfl, rfl⟩ <;> decide

theorem wf_iff (e : Expr) : e.WF = true ↔ (e.offset ≠ [] ∧ ∀ c ∈ e.offset, c.isDigit = true) ∧ (e.nbytes = 1 ∨ e.nbytes = 2 ∨ e.nbytes = 4) ∧
    (∀ m, e.mask = some m → m.ds ≠ [] ∧ ∀ c ∈ m.ds, isHex c = true) ∧ e.value.WF = true := by
  unfold Expr.WF
  cases hm : e.mask <;> simp [and_assoc, or_assoc]

theorem num_wf_dec (ds : List Char) : (Num.dec ds).WF = true ↔ ds ≠ [] ∧ ∀ c ∈ ds, c.isDigit = true := by simp [Num.WF]
theorem num_wf_hex (ds : List Char) : (Num.hex ds).WF = true ↔ ds ≠ [] ∧ ∀ c ∈ ds, isHex c = true := by simp [Num.WF]

/-- The strings that `REGEX` matches are exactly those written according to the syntax. -/
theorem regex_iff (s : List Char) : matchesRe regex s = true ↔ ∃ e : Expr, e.WF = true ∧ e.text = s := by
  rw [matchesRe_iff]
  unfold regex reDigit reHex spaces
  simp only [lang_seqs_cons, lang_seqs_nil, lang_alt, lang_lit, lang_chr, lang_plus_cls, lang_spaces, lang_opt, lang_cls]
  constructor
  · rintro ⟨p, _, rfl, hp, _, _, rfl, rfl, off, _, rfl, hoff, _, _, rfl, ⟨n1, rfl⟩, _, _, rfl, rfl, _, _, rfl, ⟨n2, rfl⟩, _, _, rfl, ⟨c, rfl, hc⟩, _, _, rfl, rfl,
      mk, _, rfl, hmk, _, _, rfl, ⟨n3, rfl⟩, _, _, rfl, rfl, _, _, rfl, ⟨n4, rfl⟩, v, _, rfl, hv, rfl⟩
    obtain ⟨nb, hnb, rfl⟩ := (nbytes_char c).1 hc
    have hp' : ∃ q : Proto, q.text = p := by
      rcases hp with h | h | h
      · exact ⟨.sctp, h.symm⟩
      · exact ⟨.tcp, h.symm⟩
      · exact ⟨.udp, h.symm⟩
    obtain ⟨q, rfl⟩ := hp'
    have hm' : ∃ m : Option Mask, maskText m = mk ∧ ∀ x, m = some x → x.ds ≠ [] ∧ ∀ c ∈ x.ds, isHex c = true := by
      rcases hmk with rfl | ⟨_, _, rfl, ⟨m1, rfl⟩, _, _, rfl, rfl, _, _, rfl, ⟨m2, rfl⟩, _, _, rfl, rfl, ds, _, rfl, hds, rfl⟩
      · exact ⟨none, rfl, by simp⟩
      · refine ⟨some ⟨m1, m2, ds⟩, ?_, ?_⟩
        · simp [maskText, sp]
        · rintro x hx; cases hx; exact hds
    obtain ⟨m, rfl, hm⟩ := hm'
    have hv' : ∃ n : Num, n.text = v ∧ n.WF = true := by
      rcases hv with h | ⟨_, _, rfl, rfl, ds, _, rfl, hds, rfl⟩
      · exact ⟨.dec v, rfl, (num_wf_dec v).2 h⟩
      · exact ⟨.hex ds, by simp [Num.text], (num_wf_hex ds).2 hds⟩
    obtain ⟨n, rfl, hn⟩ := hv'
    refine ⟨⟨q, off, n1, n2, nb, m, n3, n4, n⟩, ?_, ?_⟩
    · rw [wf_iff]; exact ⟨hoff, hnb, hm, hn⟩
    · simp [Expr.text, sp]
  · rintro ⟨e, hw, rfl⟩
    obtain ⟨h1, h2, h3, h4⟩ := (wf_iff e).1 hw
    refine ⟨e.proto.text, _, ?_, ?_, ['['], _, rfl, rfl, e.offset, _, rfl, h1, sp e.sp1, _, rfl, ⟨_, rfl⟩, [':'], _, rfl, rfl, sp e.sp2, _, rfl, ⟨_, rfl⟩, [Nat.digitChar e.nbytes], _, rfl,
      ⟨_, rfl, (nbytes_char _).2 ⟨_, h2, rfl⟩⟩, [']'], _, rfl, rfl, maskText e.mask, _, rfl, ?_, sp e.sp3, _, rfl, ⟨_, rfl⟩, ['='], _, rfl, rfl, sp e.sp4, _, rfl, ⟨_, rfl⟩, e.value.text, [], rfl, ?_, rfl⟩
    · simp [Expr.text]
    · cases e.proto <;> simp [Proto.text]
    · cases hm : e.mask with
      | none => left; rfl
      | some m =>
        right
        exact ⟨sp m.sp1, _, by simp [maskText], ⟨_, rfl⟩, ['&'], _, rfl, rfl, sp m.sp2, _, rfl, ⟨_, rfl⟩, ['0', 'x'], _, rfl, rfl, m.ds, [], rfl, h3 m hm, rfl⟩
    · cases hv : e.value with
      | dec ds => left; rw [hv] at h4; exact (num_wf_dec ds).1 h4
      | hex ds => right; rw [hv] at h4; exact ⟨['0', 'x'], ds ++ [], by simp [Num.text], rfl, ds, [], rfl, (num_wf_hex ds).1 h4, rfl⟩

/-! ### Numbers -/

theorem le_iff (a b : Char) : a ≤ b ↔ a.toNat ≤ b.toNat := by
  show a.val ≤ b.val ↔ _
  rw [UInt32.le_iff_toNat_le]; rfl

theorem isDigit_iff (c : Char) : c.isDigit = true ↔ 48 ≤ c.toNat ∧ c.toNat ≤ 57 := by
  unfold Char.isDigit
  simp only [Bool.and_eq_true, decide_eq_true_eq, UInt32.le_iff_toNat_le, ge_iff_le]
  rfl

theorem isHex_iff (c : Char) : isHex c = true ↔ (48 ≤ c.toNat ∧ c.toNat ≤ 57) ∨ (97 ≤ c.toNat ∧ c.toNat ≤ 102) := by
  unfold isHex
  simp only [Bool.or_eq_true, isDigit_iff, Bool.and_eq_true, decide_eq_true_eq, le_iff]
  rfl

theorem digitVal_eq (c : Char) : digitVal c = if 48 ≤ c.toNat ∧ c.toNat ≤ 57 then c.toNat - 48 else if 97 ≤ c.toNat ∧ c.toNat ≤ 102 then c.toNat - 87
    else if 65 ≤ c.toNat ∧ c.toNat ≤ 70 then c.toNat - 55 else 99 := by
  unfold digitVal
  simp only [le_iff]
  rfl

theorem digit_eq (c : Char) : digit c = if 48 ≤ c.toNat ∧ c.toNat ≤ 57 then c.toNat - 48 else c.toNat - 97 + 10 := by
  unfold digit
  simp only [isDigit_iff]
  rfl

theorem digitVal_of_isDigit {c : Char} (h : c.isDigit = true) : digitVal c = digit c ∧ digit c < 10 := by
  rw [isDigit_iff] at h
  rw [digitVal_eq, digit_eq, if_pos h, if_pos h]; omega

theorem digitVal_of_isHex {c : Char} (h : isHex c = true) : digitVal c = digit c ∧ digit c < 16 := by
  rw [isHex_iff] at h
  rw [digitVal_eq, digit_eq]
  rcases h with h | h
  · rw [if_pos h, if_pos h]; omega
  · rw [if_neg (by omega), if_pos h, if_neg (by omega)]; omega

/-- `number` is the positional value. -/
theorem number_eq (base : Nat) (ds : List Char) (h : ∀ c ∈ ds, digitVal c = digit c) : number base ds = positional base ds := by
  have key : ∀ (ds : List Char) (acc : Nat), (∀ c ∈ ds, digitVal c = digit c) →
      ds.foldl (fun n c => n * base + digitVal c) acc = acc * base ^ ds.length + positional base ds := by
    intro ds
    induction ds with
    | nil => intro acc _; simp [positional]
    | cons c ds ih =>
      intro acc h
      rw [List.foldl_cons, ih _ (fun d hd => h d (by simp [hd])), h c (by simp)]
      simp only [positional, List.length_cons, Nat.pow_succ, Nat.add_mul]
      rw [Nat.mul_assoc, Nat.mul_comm base, Nat.add_assoc]
  have := key ds 0 h
  unfold number; rw [this]; omega

/-- What `strtol` gives for a number that does not fit. -/
def clamp (v : Nat) : Nat := u32 (if v > 9223372036854775807 then 9223372036854775807 else v)

/-- What `strtol(…, 0)` makes of decimal digits: with a leading 0 they are taken as octal. -/
def cnum (ds : List Char) : Nat :=
  if ds.head? = some '0' then clamp (number 8 (ds.takeWhile (fun c => digitVal c < 8))) else clamp (positional 10 ds)

theorem dropWhile_isSpace_sp (n : Nat) (s : List Char) : (sp n ++ s).dropWhile isSpace = s.dropWhile isSpace := by
  induction n with
  | zero => rfl
  | succ n ih => rw [sp, List.replicate_succ, List.cons_append, List.dropWhile_cons_of_pos (by decide)]; exact ih

theorem dropWhile_head {p : Char → Bool} {c : Char} {s : List Char} (h : p c = false) : (c :: s).dropWhile p = c :: s := by
  simp [h]

theorem isSpace_lt {c : Char} (h : 33 ≤ c.toNat) : isSpace c = false := by
  cases hh : isSpace c with
  | false => rfl
  | true =>
    unfold isSpace at hh
    simp only [Bool.or_eq_true, beq_iff_eq] at hh
    rcases hh with ((((h | h) | h) | h) | h) | h <;> subst h <;> exact absurd h (by decide)

/-- The text after a number does not go on with something that could belong to it. -/
def Stops (r : List Char) : Prop := ∀ c, r.head? = some c → digitVal c = 99 ∧ c ≠ 'x' ∧ c ≠ 'X'

theorem takeWhile_stop {p : Char → Bool} (ds r : List Char) (h1 : ∀ c ∈ ds, p c = true) (h2 : ∀ c, r.head? = some c → p c = false) :
    (ds ++ r).takeWhile p = ds ∧ (ds ++ r).dropWhile p = r := by
  induction ds with
  | nil =>
    cases r with
    | nil => simp
    | cons c r => simp [h2 c rfl]
  | cons c ds ih =>
    have := ih (fun d hd => h1 d (by simp [hd]))
    have hc := h1 c (by simp)
    simp only [List.cons_append, List.takeWhile_cons, List.dropWhile_cons, hc, if_true]
    exact ⟨by rw [this.1], this.2⟩

theorem takeWhile_append_stop {p : Char → Bool} (ds r : List Char) (h2 : ∀ c, r.head? = some c → p c = false) :
    (ds ++ r).takeWhile p = ds.takeWhile p ∧ (ds ++ r).dropWhile p = ds.dropWhile p ++ r := by
  induction ds with
  | nil =>
    cases r with
    | nil => simp
    | cons c r => simp [h2 c rfl]
  | cons c ds ih =>
    simp only [List.cons_append, List.takeWhile_cons, List.dropWhile_cons]
    split
    · exact ⟨by rw [ih.1], ih.2⟩
    · exact ⟨rfl, rfl⟩

theorem basePrefix_dec {ds r : List Char} (h0 : ds ≠ []) (h1 : ∀ c ∈ ds, c.isDigit = true) (hr : Stops r) :
    basePrefix (ds ++ r) = (if ds.head? = some '0' then 8 else 10, ds ++ r) := by
  match ds, h0 with
  | c :: ds, _ =>
    by_cases hc : c = '0'
    · subst hc
      simp only [List.cons_append, List.head?_cons, if_true]
      have hx : ∀ x d t, ds ++ r = x :: d :: t → ¬ ((x = 'x' ∨ x = 'X') ∧ digitVal d < 16) := by
        intro x d t heq ⟨hx, _⟩
        cases ds with
        | nil =>
          rw [List.nil_append] at heq
          have := hr x (by rw [heq]; rfl)
          rcases hx with h | h
          · exact this.2.1 h
          · exact this.2.2 h
        | cons y ds =>
          simp only [List.cons_append, List.cons.injEq] at heq
          have hy := h1 y (by simp)
          rw [heq.1] at hy
          rcases hx with h | h <;> subst h <;> exact absurd hy (by decide)
      generalize hg : ds ++ r = l at hx
      match l with
      | [] => rfl
      | [x] => rfl
      | x :: d :: t =>
        show (if _ then _ else _) = _
        rw [if_neg (hx x d t rfl)]
    · simp only [List.cons_append, List.head?_cons, Option.some.injEq, hc, if_false]
      unfold basePrefix
      split
      · rename_i heq; simp at heq; exact absurd heq.1 hc
      · rename_i heq; simp at heq; exact absurd heq.1 hc
      · rfl

theorem strtol_dec (n : Nat) {ds r : List Char} (h0 : ds ≠ []) (h1 : ∀ c ∈ ds, c.isDigit = true) (hr : Stops r) :
    ∃ ds', (∀ c ∈ ds', c.isDigit = true) ∧ strtol0 (sp n ++ ds ++ r) = (cnum ds, ds' ++ r) := by
  match ds, h0 with
  | c :: ds, _ =>
    have hc := (isDigit_iff c).1 (h1 c (by simp))
    have hsp : (sp n ++ (c :: ds) ++ r).dropWhile isSpace = (c :: ds) ++ r := by
      rw [List.append_assoc, dropWhile_isSpace_sp, List.cons_append, dropWhile_head (isSpace_lt (by omega))]
    have hneg : (((c :: ds) ++ r).head? == some '-') = false := by
      simp only [List.cons_append, List.head?_cons]
      cases hb : (some c == some '-') with
      | false => rfl
      | true => simp at hb; subst hb; exact absurd hc (by decide)
    have hpos : (((c :: ds) ++ r).head? == some '+') = false := by
      simp only [List.cons_append, List.head?_cons]
      cases hb : (some c == some '+') with
      | false => rfl
      | true => simp at hb; subst hb; exact absurd hc (by decide)
    unfold strtol0
    simp only [hsp, hneg, hpos, Bool.or_self, Bool.false_eq_true, if_false, basePrefix_dec (by simp) h1 hr]
    by_cases h8 : (c :: ds).head? = some '0'
    · simp only [h8, if_true]
      have hst : ∀ d, r.head? = some d → decide (digitVal d < 8) = false := by
        intro d hd; rw [(hr d hd).1]; rfl
      rw [(takeWhile_append_stop (c :: ds) r hst).1, (takeWhile_append_stop (c :: ds) r hst).2]
      have hne : (c :: ds).takeWhile (fun c => decide (digitVal c < 8)) ≠ [] := by
        simp at h8; subst h8
        rw [List.takeWhile_cons_of_pos (by decide)]; simp
      rw [if_neg hne]
      refine ⟨(c :: ds).dropWhile (fun c => decide (digitVal c < 8)), ?_, ?_⟩
      · intro d hd; exact h1 d ((List.dropWhile_suffix _).subset hd)
      · unfold cnum clamp; rw [if_pos h8]
    · simp only [h8, if_false]
      have hst : ∀ d, r.head? = some d → decide (digitVal d < 10) = false := by
        intro d hd; rw [(hr d hd).1]; rfl
      have hall : ∀ d ∈ c :: ds, decide (digitVal d < 10) = true := by
        intro d hd
        have := digitVal_of_isDigit (h1 d hd)
        simp; omega
      rw [(takeWhile_stop (c :: ds) r hall hst).1, (takeWhile_stop (c :: ds) r hall hst).2]
      rw [if_neg (by simp)]
      refine ⟨[], by simp, ?_⟩
      unfold cnum clamp; rw [if_neg h8, number_eq 10 (c :: ds) (fun d hd => (digitVal_of_isDigit (h1 d hd)).1)]; rfl

theorem strtol_hex (n : Nat) {ds r : List Char} (h0 : ds ≠ []) (h1 : ∀ c ∈ ds, isHex c = true) (hr : Stops r) :
    strtol0 (sp n ++ ['0', 'x'] ++ ds ++ r) = (clamp (positional 16 ds), r) := by
  match ds, h0 with
  | c :: ds, _ =>
    have hsp : (sp n ++ ['0', 'x'] ++ (c :: ds) ++ r).dropWhile isSpace = '0' :: 'x' :: c :: (ds ++ r) := by
      simp only [List.append_assoc]
      rw [dropWhile_isSpace_sp]
      show List.dropWhile isSpace ('0' :: _) = _
      rw [dropWhile_head (by decide)]; rfl
    unfold strtol0
    have hb : basePrefix ('0' :: 'x' :: c :: (ds ++ r)) = (16, c :: ds ++ r) := by
      show (if _ then _ else _) = _
      have := digitVal_of_isHex (h1 c (by simp))
      rw [if_pos ⟨Or.inl rfl, by omega⟩]; rfl
    have hneg : (('0' :: 'x' :: c :: (ds ++ r)).head? == some '-') = false := rfl
    have hpos : (('0' :: 'x' :: c :: (ds ++ r)).head? == some '+') = false := rfl
    simp only [hsp, hneg, hpos, Bool.or_self, Bool.false_eq_true, if_false, hb]
    have hst : ∀ d, r.head? = some d → decide (digitVal d < 16) = false := by
      intro d hd; rw [(hr d hd).1]; rfl
    have hall : ∀ d ∈ c :: ds, decide (digitVal d < 16) = true := by
      intro d hd
      have := digitVal_of_isHex (h1 d hd)
      simp; omega
    rw [(takeWhile_stop (c :: ds) r hall hst).1, (takeWhile_stop (c :: ds) r hall hst).2, if_neg (by simp)]
    rw [number_eq 16 (c :: ds) (fun d hd => (digitVal_of_isHex (h1 d hd)).1)]; rfl

/-! ### The parser -/

theorem strchr_at (c : Char) (a b : List Char) (h : ∀ x ∈ a, x ≠ c) : strchr c (a ++ c :: b) = some (c :: b) := by
  unfold strchr
  have h2 : ∀ d, (c :: b).head? = some d → (d != c) = false := by intro d hd; simp at hd; simp [hd]
  rw [(takeWhile_stop (p := fun x => x != c) a (c :: b) (fun x hx => by simp [h x hx]) h2).2]

theorem strchr_none (c : Char) (a : List Char) (h : ∀ x ∈ a, x ≠ c) : strchr c a = none := by
  unfold strchr
  have := (takeWhile_stop (p := fun x => x != c) a [] (fun x hx => by simp [h x hx]) (by simp)).2
  rw [List.append_nil] at this
  rw [this]

theorem after_at (c : Char) (a b : List Char) (h : ∀ x ∈ a, x ≠ c) : after c (a ++ c :: b) = .ok b := by
  unfold after; rw [strchr_at c a b h]

theorem sp_mem {n : Nat} {c : Char} (h : c ∈ sp n) : c = ' ' := (List.mem_replicate.1 h).2

/-- The value of a number as the parser takes it. -/
def cval : Num → Nat
  | .dec ds => cnum ds
  | .hex ds => clamp (positional 16 ds)

/-- The mask as the parser takes it. -/
def cmask : Option Mask → Nat
  | none => 0
  | some m => clamp (positional 16 m.ds)

/-- The item that the parser makes of an expression. -/
def itemOf (e : Expr) : Item := ⟨e.proto.num.toNat, cnum e.offset, e.nbytes, cmask e.mask, cval e.value⟩

theorem stops_nil : Stops [] := by intro c h; simp at h
theorem stops_cons {c : Char} {r : List Char} (h : digitVal c = 99 ∧ c ≠ 'x' ∧ c ≠ 'X') : Stops (c :: r) := by
  intro d hd; simp at hd; rw [← hd]; exact h
theorem stops_sp (n : Nat) {r : List Char} (h : Stops r) : Stops (sp n ++ r) := by
  cases n with
  | zero => exact h
  | succ n => rw [sp, List.replicate_succ, List.cons_append]; exact stops_cons (by decide)

theorem isDigit_ne {c d : Char} (h : c.isDigit = true) (hd : d.isDigit = false) : c ≠ d := by
  rintro rfl; rw [h] at hd; exact absurd hd (by decide)

theorem isHex_ne {c d : Char} (h : isHex c = true) (hd : isHex d = false) : c ≠ d := by
  rintro rfl; rw [h] at hd; exact absurd hd (by decide)

theorem parse_text (e : Expr) (hw : e.WF = true) (hl : e.text.length ≤ 64) :
    matchParse e.text = .ok (if u32 (cnum e.offset + e.nbytes) > e.proto.hlen then none else some (itemOf e)) := by
  have hre : matchesRe regex e.text = true := (regex_iff _).2 ⟨e, hw, rfl⟩
  obtain ⟨⟨h1, h1'⟩, h2, h3, h4⟩ := (wf_iff e).1 hw
  unfold matchParse
  rw [if_neg (by omega), hre]
  simp only [Bool.true_eq_false, if_false]
  have hp : protoOf e.text = some e.proto.num.toNat := by
    unfold Expr.text
    cases e.proto <;> rfl
  rw [hp]
  dsimp only
  have ht : e.text = e.proto.text ++ '[' :: (sp 0 ++ e.offset ++ (sp e.sp1 ++ ':' :: (sp e.sp2 ++ [Nat.digitChar e.nbytes] ++ (']' :: (maskText e.mask ++ (sp e.sp3 ++ '=' :: (sp e.sp4 ++ e.value.text))))))) := by
    simp [Expr.text, sp]
  rw [ht, after_at _ _ _ (by cases e.proto <;> decide)]
  obtain ⟨ds', hds', hs1⟩ := strtol_dec 0 h1 h1' (r := sp e.sp1 ++ ':' :: (sp e.sp2 ++ [Nat.digitChar e.nbytes] ++ (']' :: (maskText e.mask ++ (sp e.sp3 ++ '=' :: (sp e.sp4 ++ e.value.text))))))
    (stops_sp _ (stops_cons (by decide)))
  rw [Res.ok_bind, hs1]
  dsimp only
  rw [← List.append_assoc, after_at _ _ _ (by
    intro x hx
    rcases List.mem_append.1 hx with hx | hx
    · exact isDigit_ne (hds' x hx) (by decide)
    · rw [sp_mem hx]; decide)]
  rw [Res.ok_bind]
  have hnb : ∃ r', (∀ c ∈ r', c.isDigit = true) ∧ strtol0 (sp e.sp2 ++ [Nat.digitChar e.nbytes] ++ (']' :: (maskText e.mask ++ (sp e.sp3 ++ '=' :: (sp e.sp4 ++ e.value.text))))) =
      (e.nbytes, r' ++ (']' :: (maskText e.mask ++ (sp e.sp3 ++ '=' :: (sp e.sp4 ++ e.value.text))))) := by
    obtain ⟨r', hr', hs⟩ := strtol_dec e.sp2 (ds := [Nat.digitChar e.nbytes]) (by simp) (by rcases h2 with h | h | h <;> rw [h] <;> decide)
      (r := ']' :: (maskText e.mask ++ (sp e.sp3 ++ '=' :: (sp e.sp4 ++ e.value.text)))) (stops_cons (by decide))
    refine ⟨r', hr', ?_⟩
    rw [hs]
    have : cnum [Nat.digitChar e.nbytes] = e.nbytes := by rcases h2 with h | h | h <;> rw [h] <;> decide
    rw [this]
  obtain ⟨r', hr', hs2⟩ := hnb
  rw [hs2]
  dsimp only
  rw [if_neg (by omega)]
  have hhl : headerlength e.proto.num.toNat = e.proto.hlen := by cases e.proto <;> rfl
  rw [hhl]
  by_cases hb : u32 (cnum e.offset + e.nbytes) > e.proto.hlen
  · rw [if_pos hb, if_pos hb]
  · rw [if_neg hb, if_neg hb]
    have hvt : ∀ c ∈ e.value.text, c ≠ '&' ∧ c ≠ '=' := by
      intro c hc
      cases hv : e.value with
      | dec ds =>
        rw [hv] at hc h4
        have := ((num_wf_dec ds).1 h4).2 c hc
        exact ⟨isDigit_ne this (by decide), isDigit_ne this (by decide)⟩
      | hex ds =>
        rw [hv] at hc h4
        simp only [Num.text, List.mem_cons] at hc
        rcases hc with rfl | rfl | hc
        · decide
        · decide
        · have := ((num_wf_hex ds).1 h4).2 c hc
          exact ⟨isHex_ne this (by decide), isHex_ne this (by decide)⟩
    have hval : (strtol0 (sp e.sp4 ++ e.value.text)).1 = cval e.value := by
      cases hv : e.value with
      | dec ds =>
        rw [hv] at h4
        obtain ⟨_, _, hs⟩ := strtol_dec e.sp4 ((num_wf_dec ds).1 h4).1 ((num_wf_dec ds).1 h4).2 stops_nil
        rw [List.append_nil] at hs
        show (strtol0 (sp e.sp4 ++ ds)).1 = _
        rw [hs]; rfl
      | hex ds =>
        rw [hv] at h4
        have hs := strtol_hex e.sp4 ((num_wf_hex ds).1 h4).1 ((num_wf_hex ds).1 h4).2 stops_nil
        rw [List.append_nil] at hs
        have : sp e.sp4 ++ (Num.hex ds).text = sp e.sp4 ++ ['0', 'x'] ++ ds := by simp [Num.text]
        rw [this, hs]; rfl
    cases hm : e.mask with
    | none =>
      have hno : ∀ x ∈ r' ++ (']' :: (maskText none ++ (sp e.sp3 ++ '=' :: (sp e.sp4 ++ e.value.text)))), x ≠ '&' := by
        intro x hx
        simp only [maskText, List.nil_append, List.mem_append, List.mem_cons] at hx
        rcases hx with hx | rfl | hx | rfl | hx | hx
        · exact isDigit_ne (hr' x hx) (by decide)
        · decide
        · rw [sp_mem hx]; decide
        · decide
        · rw [sp_mem hx]; decide
        · exact (hvt x hx).1
      rw [strchr_none _ _ hno]
      dsimp only
      have ha : r' ++ (']' :: (maskText none ++ (sp e.sp3 ++ '=' :: (sp e.sp4 ++ e.value.text)))) = (r' ++ ']' :: sp e.sp3) ++ '=' :: (sp e.sp4 ++ e.value.text) := by
        simp [maskText]
      rw [ha, after_at _ _ _ (by
        intro x hx
        simp only [List.mem_append, List.mem_cons] at hx
        rcases hx with hx | rfl | hx
        · exact isDigit_ne (hr' x hx) (by decide)
        · decide
        · rw [sp_mem hx]; decide), Res.ok_bind, Res.pure_eq, hval]
      unfold itemOf; rw [hm]; rfl
    | some m =>
      have ha : r' ++ (']' :: (maskText (some m) ++ (sp e.sp3 ++ '=' :: (sp e.sp4 ++ e.value.text)))) =
          (r' ++ ']' :: sp m.sp1) ++ '&' :: (sp m.sp2 ++ ['0', 'x'] ++ m.ds ++ (sp e.sp3 ++ '=' :: (sp e.sp4 ++ e.value.text))) := by
        simp [maskText]
      rw [ha, strchr_at _ _ _ (by
        intro x hx
        simp only [List.mem_append, List.mem_cons] at hx
        rcases hx with hx | rfl | hx
        · exact isDigit_ne (hr' x hx) (by decide)
        · decide
        · rw [sp_mem hx]; decide)]
      dsimp only [List.drop]
      rw [strtol_hex m.sp2 (h3 m hm).1 (h3 m hm).2 (stops_sp _ (stops_cons (by decide)))]
      dsimp only
      rw [after_at _ _ _ (by intro x hx; rw [sp_mem hx]; decide), Res.ok_bind, Res.pure_eq, hval]
      unfold itemOf; rw [hm]; rfl

/-- Every string is refused or is an expression according to the syntax. -/
theorem parse_cases (s : List Char) : matchParse s = .ok none ∨ ∃ e : Expr, e.WF = true ∧ e.text = s ∧ s.length ≤ 64 := by
  by_cases hl : s.length ≤ 64
  · cases hre : matchesRe regex s with
    | false =>
      left; unfold matchParse
      rw [if_neg (by omega), if_pos hre]
    | true =>
      obtain ⟨e, h1, h2⟩ := (regex_iff s).1 hre
      exact Or.inr ⟨e, h1, h2, hl⟩
  · left; unfold matchParse; rw [if_pos (by omega)]

end Nfqlb.Match
