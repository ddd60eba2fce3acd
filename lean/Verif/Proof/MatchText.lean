import Verif.Proof.MatchEval

/-! Byte-match expressions: printing, and parsing what was printed. -/

set_option autoImplicit false

namespace Nfqlb.Match

open Nfqlb.Spec Nfqlb.Spec.BM Nfqlb.CText

/-! ### Printing -/

/-- The items after the first, each with a comma. -/
def tailText (m : Match) : List Char := m.flatMap (fun i => ',' :: itemText i)

theorem itemText_len (i : Item) : 6 ≤ (itemText i).length := by
  unfold itemText
  simp only [List.length_append, List.length_cons, List.length_nil]
  have : "=0x".toList.length = 3 := rfl
  omega

theorem emit_ok (size pos space : Nat) (text : List Char) (h : pos + space ≤ size) : ∃ w, emit size pos space text = .ok w ∧ (text.length < space → w = text) := by
  unfold emit
  by_cases h0 : space = 0
  · rw [if_pos h0]; exact ⟨[], rfl, by omega⟩
  · rw [if_neg h0, if_neg (by omega)]
    exact ⟨_, rfl, fun hl => List.take_of_length_le (by omega)⟩

theorem loop_later (len : Nat) : ∀ (m : Match) (pos space : Nat) (out : List Char), 0 < pos → 0 < space → pos + space = len →
    ∃ rc out', matchStringLoop len m pos space out = .ok (rc, out') ∧ (rc = 0 ∨ rc = 1) ∧ (rc = 0 ↔ (tailText m).length < space) ∧ (rc = 0 → out' = out ++ tailText m)
  | [], pos, space, out, _, hs, _ => ⟨0, out, rfl, Or.inl rfl, by simp [tailText]; omega, by simp [tailText]⟩
  | i :: m, pos, space, out, hp, hs, hl => by
    have hlen := itemText_len i
    have htl : (tailText (i :: m)).length = 1 + (itemText i).length + (tailText m).length := by simp [tailText]; omega
    unfold matchStringLoop
    by_cases h2 : space < len ∧ space > 2
    · rw [if_pos h2, if_neg (by omega)]
      obtain ⟨w, hw, hwt⟩ := emit_ok len (pos + 1) (space - 1) (itemText i) (by omega)
      rw [hw, Res.ok_bind]
      dsimp only
      by_cases hc : (itemText i).length ≥ space - 1
      · rw [if_pos hc]
        exact ⟨1, _, rfl, Or.inr rfl, by rw [htl]; constructor <;> intro h <;> omega, by intro h; omega⟩
      · rw [if_neg hc]
        obtain ⟨rc, out', h1, h3, h4, h5⟩ := loop_later len m (pos + 1 + (itemText i).length) (space - 1 - (itemText i).length) (out ++ [','] ++ w) (by omega) (by omega) (by omega)
        refine ⟨rc, out', h1, h3, ?_, ?_⟩
        · rw [h4, htl]; constructor <;> intro h <;> omega
        · intro h; rw [h5 h, hwt (by omega)]; simp [tailText]
    · rw [if_neg h2]
      obtain ⟨w, hw, hwt⟩ := emit_ok len pos space (itemText i) (by omega)
      rw [hw, Res.ok_bind]
      dsimp only
      rw [if_pos (by omega)]
      exact ⟨1, _, rfl, Or.inr rfl, by rw [htl]; constructor <;> intro h <;> omega, by intro h; omega⟩

/-- The whole text: the items separated by commas. -/
def fullText : Match → List Char
  | [] => []
  | i :: m => itemText i ++ tailText m

theorem string_spec (m : Match) (len : Nat) (hl : 0 < len) :
    ∃ rc out, matchString m len = .ok (rc, out) ∧ (rc = 0 ∨ rc = 1) ∧ (rc = 0 ↔ (fullText m).length < len) ∧ (rc = 0 → out = fullText m) := by
  unfold matchString
  rw [if_neg (by omega)]
  cases m with
  | nil => exact ⟨0, [], rfl, Or.inl rfl, by simp [fullText]; omega, by simp [fullText]⟩
  | cons i m =>
    have hlen := itemText_len i
    have hft : (fullText (i :: m)).length = (itemText i).length + (tailText m).length := by simp [fullText]
    unfold matchStringLoop
    rw [if_neg (by omega)]
    obtain ⟨w, hw, hwt⟩ := emit_ok len 0 len (itemText i) (by omega)
    rw [hw, Res.ok_bind]
    dsimp only
    by_cases hc : (itemText i).length ≥ len
    · rw [if_pos hc]
      exact ⟨1, _, rfl, Or.inr rfl, by rw [hft]; constructor <;> intro h <;> omega, by intro h; omega⟩
    · rw [if_neg hc]
      obtain ⟨rc, out', h1, h3, h4, h5⟩ := loop_later len m (0 + (itemText i).length) (len - (itemText i).length) ([] ++ w) (by omega) (by omega) (by omega)
      refine ⟨rc, out', h1, h3, ?_, ?_⟩
      · rw [h4, hft]; constructor <;> intro h <;> omega
      · intro h; rw [h5 h, hwt (by omega)]; simp [fullText]

/-! ### Digits -/

theorem positional_snoc (b : Nat) (ds : List Char) (c : Char) : positional b (ds ++ [c]) = positional b ds * b + digit c := by
  induction ds with
  | nil => simp [positional]
  | cons d ds ih =>
    simp only [List.cons_append, positional, ih, List.length_append, List.length_cons, List.length_nil]
    rw [Nat.pow_succ, Nat.add_mul, Nat.mul_assoc, Nat.add_assoc]

theorem digit_digitChar : ∀ k, k < 16 → digit (Nat.digitChar k) = k ∧ isHex (Nat.digitChar k) = true := by decide

theorem positional_toDigits (b : Nat) (h1 : 1 < b) (h2 : b ≤ 16) (n : Nat) : positional b (Nat.toDigits b n) = n ∧ ∀ c ∈ Nat.toDigits b n, isHex c = true := by
  induction n using Nat.strongRecOn with
  | _ n ih =>
    by_cases hn : n < b
    · rw [Nat.toDigits_of_lt_base hn]
      have := digit_digitChar n (by omega)
      refine ⟨by simp [positional, this.1], ?_⟩
      intro c hc; simp at hc; rw [hc]; exact this.2
    · rw [Nat.toDigits_of_base_le h1 (by omega), positional_snoc]
      have hd := Nat.div_lt_self (n := n) (k := b) (by omega) h1
      have hm := Nat.mod_lt n (show 0 < b by omega)
      have := digit_digitChar (n % b) (by omega)
      refine ⟨?_, ?_⟩
      · rw [(ih _ hd).1, this.1, Nat.mul_comm]; exact Nat.div_add_mod n b
      · intro c hc
        rcases List.mem_append.1 hc with hc | hc
        · exact (ih _ hd).2 c hc
        · simp at hc; rw [hc]; exact this.2

theorem toDigits_head (n : Nat) (h : (Nat.toDigits 10 n).head? = some '0') : Nat.toDigits 10 n = ['0'] := by
  induction n using Nat.strongRecOn with
  | _ n ih =>
    by_cases hn : n < 10
    · rw [Nat.toDigits_of_lt_base hn] at h ⊢
      simp at h; rw [h]; rfl
    · rw [Nat.toDigits_of_base_le (by decide) (by omega)] at h
      have hd : n / 10 < n := by omega
      have hne : Nat.toDigits 10 (n / 10) ≠ [] := Nat.toDigits_ne_nil
      have h : (Nat.toDigits 10 (n / 10)).head? = some '0' := by
        rw [← h]
        cases hx : Nat.toDigits 10 (n / 10) with
        | nil => exact absurd hx hne
        | cons _ _ => rfl
      have h0 := ih _ hd h
      have := (positional_toDigits 10 (by decide) (by decide) (n / 10)).1
      rw [h0] at this
      have h00 : positional 10 ['0'] = 0 := by decide
      omega

/-! ### Printing and parsing -/

/-- The printed form of an item, as an expression. -/
def exprOf (p : Proto) (i : Item) : Expr where
  proto := p
  offset := dec i.offset
  sp1 := 0
  sp2 := 0
  nbytes := i.nbytes
  mask := if i.mask ≠ 0 then some ⟨0, 0, hex i.mask⟩ else none
  sp3 := 0
  sp4 := 0
  value := .hex (hex i.value)

theorem u32_lt (x : Nat) : u32 x < 4294967296 := by unfold u32; omega
theorem clamp_lt (x : Nat) : clamp x < 4294967296 := u32_lt _
theorem cnum_lt (ds : List Char) : cnum ds < 4294967296 := by unfold cnum; split <;> exact clamp_lt _

theorem hex_facts (n : Nat) : hex n ≠ [] ∧ (∀ c ∈ hex n, isHex c = true) ∧ positional 16 (hex n) = n ∧ (n < 4294967296 → (hex n).length ≤ 8) := by
  have := positional_toDigits 16 (by decide) (by decide) n
  exact ⟨Nat.toDigits_ne_nil, this.2, this.1, fun h => (Nat.length_toDigits_le_iff (by decide) (by decide)).2 (by simpa using h)⟩

theorem dec_facts (n : Nat) : dec n ≠ [] ∧ (∀ c ∈ dec n, c.isDigit = true) ∧ positional 10 (dec n) = n ∧ (n < 4294967296 → (dec n).length ≤ 10) :=
  ⟨Nat.toDigits_ne_nil, fun _ h => Nat.isDigit_of_mem_toDigits (by decide) (by decide) h, (positional_toDigits 10 (by decide) (by decide) n).1,
    fun h => (Nat.length_toDigits_le_iff (by decide) (by decide)).2 (by omega)⟩

theorem exprOf_wf (p : Proto) (i : Item) (hn : i.nbytes = 1 ∨ i.nbytes = 2 ∨ i.nbytes = 4) : (exprOf p i).WF = true := by
  rw [wf_iff]
  refine ⟨⟨(dec_facts _).1, (dec_facts _).2.1⟩, hn, ?_, (num_wf_hex _).2 ⟨(hex_facts _).1, (hex_facts _).2.1⟩⟩
  intro m hm
  unfold exprOf at hm
  dsimp only at hm
  split at hm
  · cases hm; exact ⟨(hex_facts _).1, (hex_facts _).2.1⟩
  · simp at hm

theorem exprOf_item (p : Proto) (i : Item) (hp : i.proto = p.num.toNat) (ho : i.offset < 4294967296) (hm : i.mask < 4294967296) (hv : i.value < 4294967296) :
    itemOf (exprOf p i) = i := by
  obtain ⟨a, b, c, d, e⟩ := i
  simp only at hp ho hm hv
  subst hp
  unfold itemOf exprOf
  dsimp only
  have h1 : cnum (dec b) = b := by
    have hd : (dec b).head? = some '0' → dec b = ['0'] := fun h => toDigits_head b h
    rw [cnum_plain hd (by rw [(dec_facts b).2.2.1]; exact ho), (dec_facts b).2.2.1]
  have h2 : cmask (if d ≠ 0 then some ⟨0, 0, hex d⟩ else none) = d := by
    by_cases hd : d = 0
    · subst hd; rfl
    · rw [if_pos hd]
      show clamp (positional 16 (hex d)) = d
      rw [(hex_facts d).2.2.1, clamp_small hm]
  have h3 : cval (.hex (hex e)) = e := by
    show clamp (positional 16 (hex e)) = e
    rw [(hex_facts e).2.2.1, clamp_small hv]
  rw [h1, h2, h3]

theorem exprOf_text (p : Proto) (i : Item) (hp : i.proto = p.num.toNat) (hn : i.nbytes = 1 ∨ i.nbytes = 2 ∨ i.nbytes = 4) : (exprOf p i).text = itemText i := by
  unfold itemText Expr.text exprOf
  dsimp only
  have h1 : protostring i.proto = p.text := by rw [hp]; cases p <;> rfl
  have h2 : dec i.nbytes = [Nat.digitChar i.nbytes] := by rcases hn with h | h | h <;> rw [h] <;> decide
  rw [h1, h2]
  by_cases hm : i.mask = 0
  · rw [if_neg (by simpa using hm), if_neg (by simpa using hm)]
    simp [maskText, sp, Num.text]
  · rw [if_pos hm, if_pos hm]
    simp [maskText, sp, Num.text]

theorem itemText_le (p : Proto) (i : Item) (hp : i.proto = p.num.toNat) (hn : i.nbytes = 1 ∨ i.nbytes = 2 ∨ i.nbytes = 4)
    (ho : i.offset < 4294967296) (hm : i.mask < 4294967296) (hv : i.value < 4294967296) : (itemText i).length ≤ 64 := by
  unfold itemText
  have h1 : (protostring i.proto).length ≤ 4 := by rw [hp]; cases p <;> decide
  have h2 : (dec i.nbytes).length = 1 := by rcases hn with h | h | h <;> rw [h] <;> decide
  have h3 := (dec_facts i.offset).2.2.2 ho
  have h4 := (hex_facts i.mask).2.2.2 hm
  have h5 := (hex_facts i.value).2.2.2 hv
  have e1 : "&0x".toList.length = 3 := rfl
  have e2 : "=0x".toList.length = 3 := rfl
  simp only [List.length_append, List.length_cons, List.length_nil]
  split
  · simp only [List.length_append]; omega
  · simp only [List.length_nil]; omega

/-- The printed form of an accepted item is accepted and gives the same item. -/
theorem reparse {s : List Char} {i : Item} (h : matchParse s = .ok (some i)) : matchParse (itemText i) = .ok (some i) := by
  obtain ⟨e, h1, _, _, rfl, h2⟩ := parse_item h
  have hn := ((wf_iff e).1 h1).2.1
  have ho : (itemOf e).offset < 4294967296 := cnum_lt _
  have hm : (itemOf e).mask < 4294967296 := by
    show cmask e.mask < _
    cases e.mask with
    | none => decide
    | some m => exact clamp_lt _
  have hv : (itemOf e).value < 4294967296 := by
    show cval e.value < _
    cases e.value with
    | dec ds => exact cnum_lt _
    | hex ds => exact clamp_lt _
  have hi := exprOf_item e.proto (itemOf e) rfl ho hm hv
  have ht := exprOf_text e.proto (itemOf e) rfl hn
  rw [← ht, parse_text _ (exprOf_wf _ _ hn) (by rw [ht]; exact itemText_le e.proto _ rfl hn ho hm hv), hi]
  have h3 : cnum (exprOf e.proto (itemOf e)).offset = cnum e.offset := congrArg Item.offset hi
  rw [h3]
  show Res.ok (if u32 (cnum e.offset + e.nbytes) > e.proto.hlen then none else some (itemOf e)) = _
  rw [if_neg (by omega)]

theorem itemText_comma {s : List Char} {i : Item} (h : matchParse s = .ok (some i)) : ∀ c ∈ itemText i, c ≠ ',' := by
  obtain ⟨e, h1, _, _, rfl, _⟩ := parse_item h
  have hn := ((wf_iff e).1 h1).2.1
  intro c hc
  unfold itemText at hc
  have hp : ∀ c ∈ protostring (itemOf e).proto, c ≠ ',' := by
    show ∀ c ∈ protostring e.proto.num.toNat, _
    cases e.proto <;> decide
  have hd : ∀ n, ∀ c ∈ dec n, c ≠ ',' := fun n c hc => isDigit_ne ((dec_facts n).2.1 c hc) (by decide)
  have hx : ∀ n, ∀ c ∈ hex n, c ≠ ',' := fun n c hc => isHex_ne ((hex_facts n).2.1 c hc) (by decide)
  have e1 : ∀ c ∈ "&0x".toList, c ≠ ',' := by decide
  have e2 : ∀ c ∈ "=0x".toList, c ≠ ',' := by decide
  simp only [List.mem_append, List.mem_singleton] at hc
  rcases hc with (((((((hc | hc) | hc) | hc) | hc) | hc) | hc) | hc) | hc
  · exact hp c hc
  · rw [hc]; decide
  · exact hd _ c hc
  · rw [hc]; decide
  · exact hd _ c hc
  · rw [hc]; decide
  · split at hc
    · rcases List.mem_append.1 hc with hc | hc
      · exact e1 c hc
      · exact hx _ c hc
    · simp at hc
  · exact e2 c hc
  · exact hx _ c hc

theorem tokens_run (x cur s : List Char) (h : ∀ c ∈ x, c ≠ ',') : tokensAux [','] cur (x ++ s) = tokensAux [','] (x.reverse ++ cur) s := by
  induction x generalizing cur with
  | nil => rfl
  | cons c x ih =>
    have hc : c ∉ [','] := by simpa using h c (by simp)
    rw [List.cons_append, tokensAux, if_neg hc, ih _ (fun d hd => h d (by simp [hd]))]
    simp

theorem tokens_tail : ∀ (m : Match) (cur : List Char), (∀ i ∈ m, ∀ c ∈ itemText i, c ≠ ',') → cur ≠ [] → tokensAux [','] cur (tailText m) = cur.reverse :: m.map itemText
  | [], cur, _, hc => by simp [tailText, tokensAux, hc]
  | i :: m, cur, h, hc => by
    have : tailText (i :: m) = ',' :: (itemText i ++ tailText m) := by simp [tailText]
    rw [this, tokensAux, if_pos (by simp), if_neg hc, tokens_run _ _ _ (h i (by simp))]
    have hlen := itemText_len i
    rw [tokens_tail m _ (fun j hj => h j (by simp [hj])) (by
      intro he
      have := congrArg List.length he
      simp at this; rw [this] at hlen; simp at hlen)]
    simp

theorem tokens_full (m : Match) (h : ∀ i ∈ m, ∀ c ∈ itemText i, c ≠ ',') : tokens [','] (fullText m) = m.map itemText := by
  cases m with
  | nil => rfl
  | cons i m =>
    have hlen := itemText_len i
    unfold tokens fullText
    rw [tokens_run _ _ _ (h i (by simp)), tokens_tail m _ (fun j hj => h j (by simp [hj])) (by
      intro he
      have := congrArg List.length he
      simp at this; rw [this] at hlen; simp at hlen)]
    simp

theorem addAll_ok : ∀ (l : List (List Char)) (m is : Match), l.map matchParse = is.map (fun i => .ok (some i)) → matchAddAll m l = .ok (some (m ++ is))
  | [], m, is, h => by
    cases is with
    | nil => simp [matchAddAll]
    | cons _ _ => simp at h
  | s :: l, m, is, h => by
    cases is with
    | nil => simp at h
    | cons i is =>
      simp only [List.map_cons, List.cons.injEq] at h
      unfold matchAddAll matchAdd
      rw [h.1]
      simp only [Res.ok_bind, Res.pure_eq]
      rw [addAll_ok l _ is h.2]; simp

end Nfqlb.Match
