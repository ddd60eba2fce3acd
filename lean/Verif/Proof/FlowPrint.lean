import Verif.Model.FlowPrint
import Verif.Spec.FlowPrint
import Verif.Proof.PortsPrint
import Verif.Proof.Ntop
import Verif.Proof.Json
import Verif.Proof.MatchText

/-! The printing of flows. -/

set_option autoImplicit false

namespace Nfqlb.Flow

open Nfqlb.Spec Nfqlb.Spec.FL Nfqlb.Spec.RS Nfqlb.RS Nfqlb.RS.Tree Nfqlb.Spec.J Nfqlb.Spec.FP

/-! ### Networks -/

/-- The networks that a definition can give. -/
def CidrOK (c : Cidr) : Prop := ∃ a p, p ≤ 128 ∧ a.length = 16 ∧ c = ⟨maskAdr a (maskOf p), maskOf p⟩

theorem pton4_length : ∀ (s : List Char) (done : List UInt8) (st : Nat × Bool) {b : List UInt8}, CText.pton4Loop s done st = some b → b.length = 4
  | [], done, st, b, h => by
    unfold CText.pton4Loop at h
    split at h
    · rename_i h1
      cases h
      rw [List.length_append, h1.2]; rfl
    · cases h
  | c :: s, done, st, b, h => by
    unfold CText.pton4Loop at h
    split at h
    · split at h
      · exact pton4_length s _ _ h
      · cases h
    · split at h
      · split at h
        · cases h
        · exact pton4_length s _ _ h
      · cases h

theorem pton6Loop_length : ∀ (s cur : List Char) (st : CText.Pton6) {r : CText.Pton6}, st.tp.length ≤ 16 → CText.pton6Loop s cur st = some r → r.tp.length ≤ 16
  | [], cur, st, r, h0, h => by cases h; exact h0
  | c :: s, cur, st, r, h0, h => by
    unfold CText.pton6Loop at h
    split at h
    · split at h
      · cases h
      · exact pton6Loop_length s _ _ (by exact h0) h
    · split at h
      · split at h
        · split at h
          · cases h
          · exact pton6Loop_length s _ _ (by exact h0) h
        · split at h
          · cases h
          · split at h
            · cases h
            · refine pton6Loop_length s _ _ ?_ h
              unfold CText.Pton6.flush
              simp only [List.length_append, List.length_cons, List.length_nil]
              omega
      · split at h
        · rename_i h1
          split at h
          · rename_i b hb
            cases h
            have := pton4_length _ _ _ hb
            simp only [List.length_append]
            omega
          · cases h
        · cases h

theorem pton6End_length {st : CText.Pton6} {a : List UInt8} (h0 : st.tp.length ≤ 16) (h : CText.pton6End st = some a) : a.length = 16 := by
  unfold CText.pton6End at h
  split at h
  · cases h
  · rename_i hx
    dsimp only at h
    generalize hs : (if st.xd > 0 then st.flush else st) = u at h
    have hu : u.tp.length ≤ 16 := by
      rw [← hs]
      split
      · unfold CText.Pton6.flush
        simp only [List.length_append, List.length_cons, List.length_nil]
        omega
      · exact h0
    split at h
    · split at h
      · cases h
      · cases h
        simp only [List.length_append, List.length_take, List.length_replicate, List.length_drop]
        omega
    · split at h
      · rename_i e; cases h; exact e
      · cases h

theorem pton6_length {s : List Char} {a : List UInt8} (h : CText.pton6 s = some a) : a.length = 16 := by
  have key : ∀ t, (CText.pton6Loop t t ⟨[], none, 0, 0⟩).bind CText.pton6End = some a → a.length = 16 := by
    intro t ht
    cases hl : CText.pton6Loop t t ⟨[], none, 0, 0⟩ with
    | none => rw [hl] at ht; cases ht
    | some st =>
      rw [hl] at ht
      exact pton6End_length (pton6Loop_length _ _ _ (by simp) hl) ht
  unfold CText.pton6 at h
  split at h
  · cases h
  · split at h
    · exact key _ h
    · cases h
  · exact key _ h

theorem parseCidr_ok {s : List Char} {c : Cidr} (h : parseCidr s = .ok (some c)) : CidrOK c := by
  unfold parseCidr at h
  cases hb : cidrBuf s with
  | ok t =>
    rw [hb] at h
    simp only [Res.ok_bind, Res.pure_eq, bitMask_eq] at h
    split at h
    · cases h
    · split at h
      · cases h
      · rename_i m _ _
        generalize (if ':' ∈ s then m else u32 (m + 96)) = k at h
        split at h
        · cases h
        · rename_i hm
          split at h
          · cases h
          · rename_i a ha
            cases h
            exact ⟨a, _, by omega, pton6_length ha, rfl⟩
  | die => rw [hb] at h; cases h
  | ub => rw [hb] at h; cases h
  | hang => rw [hb] at h; cases h

theorem cidrLoop_ok : ∀ (l : List (List Char)) {cs : List Cidr}, cidrLoop l = .ok (some cs) → (∀ c ∈ cs, CidrOK c) ∧ cs.length = l.length
  | [], cs, h => by cases h; simp
  | s :: l, cs, h => by
    unfold cidrLoop at h
    cases hb : parseCidr s with
    | ok t =>
      rw [hb] at h
      simp only [Res.ok_bind, Res.pure_eq] at h
      cases t with
      | none => cases h
      | some c =>
        dsimp only at h
        cases hl : cidrLoop l with
        | ok u =>
          rw [hl] at h
          simp only [Res.ok_bind] at h
          cases u with
          | none => cases h
          | some ds =>
            cases h
            have := cidrLoop_ok l hl
            refine ⟨?_, by simp [this.2]⟩
            intro x hx
            rw [List.mem_cons] at hx
            rcases hx with rfl | hx
            · exact parseCidr_ok hb
            · exact this.1 x hx
        | die => rw [hl] at h; cases h
        | ub => rw [hl] at h; cases h
        | hang => rw [hl] at h; cases h
    | die => rw [hb] at h; cases h
    | ub => rw [hb] at h; cases h
    | hang => rw [hb] at h; cases h

theorem parseCidrs_ok {l : List (List Char)} {cs : List Cidr} (h : parseCidrs l = .ok (some cs)) : (∀ c ∈ cs, CidrOK c) ∧ 1 ≤ cs.length ∧ cs.length ≤ 32 := by
  unfold parseCidrs at h
  split at h
  · cases h
  · split at h
    · cases h
    · obtain ⟨h1, h2⟩ := cidrLoop_ok l h
      exact ⟨h1, by omega, by omega⟩

theorem ones_maskOf : ∀ p < 129, leadingones ((maskOf p).take 8) = .ok (min p 64) ∧ leadingones ((maskOf p).drop 8) = .ok (p - 64) := by decide +kernel

theorem maskAdr_again (a m : List UInt8) (h : a.length = m.length) : maskAdr (maskAdr a m) m = maskAdr a m := by
  have hl := maskAdr_length a m h
  refine ext_bits _ _ a.length (by rw [maskAdr_length _ _ (by omega)]; exact hl) hl ?_
  intro i _
  rw [bit_and _ _ (by omega), bit_and _ _ h]
  cases bit a i <;> cases bit m i <;> rfl

/-- The characters of an address in text. -/
theorem text_plain (a : Addr6) (h : a.WF) : ∀ c ∈ a.text, plainChar c = true := by
  have hd : ∀ c : Char, c.isDigit = true → plainChar c = true := by
    intro c hc
    simp only [Char.isDigit, Bool.and_eq_true, decide_eq_true_eq] at hc
    have h1 : 48 ≤ c.toNat := hc.1
    have h2 : c.toNat ≤ 57 := hc.2
    have e1 : c ≠ '"' := by rintro rfl; exact absurd h1 (by decide)
    have e2 : c ≠ '\\' := by rintro rfl; exact absurd h2 (by decide)
    unfold plainChar
    simp only [bne_iff_ne, ne_eq, Bool.and_eq_true, decide_eq_true_eq, e1, not_false_eq_true, e2, and_self, true_and]
    omega
  have hx : ∀ c : Char, (hexDigit c).isSome → plainChar c = true := by
    intro c hc
    unfold plainChar
    have hr : 32 ≤ c.toNat := by
      unfold hexDigit at hc
      split at hc
      · rename_i h1; have : 48 ≤ c.toNat := h1.1; omega
      · split at hc
        · rename_i h1; have : 97 ≤ c.toNat := h1.1; omega
        · split at hc
          · rename_i h1; have : 65 ≤ c.toNat := h1.1; omega
          · cases hc
    have e1 : c ≠ '"' := by rintro rfl; exact absurd hc (by decide)
    have e2 : c ≠ '\\' := by rintro rfl; exact absurd hc (by decide)
    simp only [bne_iff_ne, ne_eq, Bool.and_eq_true, decide_eq_true_eq, e1, not_false_eq_true, e2, and_self, true_and]
    exact hr
  have hg : ∀ g ∈ a.left ++ a.right, ∀ c ∈ g, plainChar c = true := fun g hgm c hc => hx c ((h.1 g hgm).2.2 c hc)
  have ht : ∀ g ∈ a.tail.toList.map dotted, ∀ c ∈ g, plainChar c = true := by
    intro g hgm c hc
    rw [List.mem_map] at hgm
    obtain ⟨b, _, rfl⟩ := hgm
    rcases dotted_chars hc with h1 | rfl
    · exact hd c h1
    · decide
  unfold Addr6.text
  split
  · intro c hc
    simp only [List.mem_append] at hc
    rcases hc with (hc | hc) | hc
    · exact colons_chars (fun c => plainChar c = true) (by decide) _ (fun g hgm => hg g (by simp [hgm])) c hc
    · simp only [List.mem_cons, List.not_mem_nil, or_false, or_self] at hc
      subst hc; decide
    · refine colons_chars (fun c => plainChar c = true) (by decide) _ ?_ c hc
      intro g hgm
      rw [List.mem_append] at hgm
      rcases hgm with hgm | hgm
      · exact hg g (by simp [hgm])
      · exact ht g hgm
  · intro c hc
    refine colons_chars (fun c => plainChar c = true) (by decide) _ ?_ c hc
    intro g hgm
    rw [List.mem_append] at hgm
    rcases hgm with hgm | hgm
    · exact hg g (by simp [hgm])
    · exact ht g hgm

theorem digits_plain (n : Nat) : ∀ c ∈ Nat.toDigits 10 n, plainChar c = true := by
  intro c hc
  have := digits_isDigit hc
  simp only [Char.isDigit, Bool.and_eq_true, decide_eq_true_eq] at this
  have h1 : 48 ≤ c.toNat := this.1
  have h2 : c.toNat ≤ 57 := this.2
  have e1 : c ≠ '"' := by rintro rfl; exact absurd h1 (by decide)
  have e2 : c ≠ '\\' := by rintro rfl; exact absurd h2 (by decide)
  unfold plainChar
  simp only [bne_iff_ne, ne_eq, Bool.and_eq_true, decide_eq_true_eq, e1, not_false_eq_true, e2, and_self, true_and]
  omega

/-- What is printed for a network. -/
theorem printCidr_ok {c : Cidr} (h : CidrOK c) : ∃ n : Net, n.text.all plainChar = true ∧ printCidr c = .ok ("    \"".toList ++ n.text ++ ['"']) ∧ SameNet c n ∧ parseCidr n.text = .ok (some c) := by
  obtain ⟨a, p, hp, ha, rfl⟩ := h
  have hl : (maskAdr a (maskOf p)).length = 16 := by rw [maskAdr_length _ _ (by rw [maskOf_length, ha]), ha]
  obtain ⟨t, ht, e1, e2⟩ := CText.ntop_text _ hl
  obtain ⟨ex, ey⟩ := ones_maskOf p (by omega)
  have exy : min p 64 + (p - 64) = p := by omega
  have hparse := parse_v6 t ht p (by omega)
  rw [if_neg (by omega), e2, maskAdr_again _ _ (by rw [maskOf_length, ha])] at hparse
  refine ⟨.v6 t p, ?_, ?_, ⟨⟨ht, hp⟩, ?_⟩, hparse⟩
  · rw [List.all_eq_true]
    intro c hc
    simp only [Net.text, List.mem_append, List.mem_singleton] at hc
    rcases hc with (hc | hc) | hc
    · exact text_plain t ht c hc
    · subst hc; decide
    · exact digits_plain p c hc
  · unfold printCidr
    dsimp only
    rw [ex, ey]
    simp only [Res.ok_bind, Res.pure_eq, exy, ← e1, Net.text, CText.dec, List.append_assoc]
  · intro v hv
    have h1 := inCidr_iff t.bytes v p hp (by rw [e2]; exact hl) hv
    rw [e2, maskAdr_again _ _ (by rw [maskOf_length, ha])] at h1
    rw [h1, ← e2]
    rfl

theorem Each.ne_nil {α β : Type} {R : α → β → Prop} {l : List α} {m : List β} (h : Each R l m) : l = [] ↔ m = [] := by
  cases h <;> simp

theorem printCidrs_cons {c : Cidr} {cs : List Cidr} {n : List Char} {ns : List (List Char)} (h : printCidr c = .ok ("    \"".toList ++ n ++ ['"'])) (hs : printCidrs cs = .ok (printTokens ns)) (he : cs = [] ↔ ns = []) :
    printCidrs (c :: cs) = .ok (printTokens (n :: ns)) := by
  have e1 : printCidrs (c :: cs) = (do
    let s ← printCidr c
    let t ← printCidrs cs
    return s ++ (if cs ≠ [] then ",\n".toList else []) ++ t) := rfl
  have e2 : printTokens (n :: ns) = "    \"".toList ++ n ++ ['"'] ++ (if ns ≠ [] then ",\n".toList else []) ++ printTokens ns := rfl
  have e3 : (if cs ≠ [] then ",\n".toList else []) = (if ns ≠ [] then ",\n".toList else []) := by
    by_cases hc : cs = []
    · rw [if_neg (not_not.2 hc), if_neg (not_not.2 (he.1 hc))]
    · rw [if_pos hc, if_pos (fun h => hc (he.2 h))]
  rw [e1, e2, h, hs, ← e3]
  rfl

theorem printCidrs_ok : ∀ (cs : List Cidr), (∀ c ∈ cs, CidrOK c) → ∃ ns : List Net, (∀ n ∈ ns, n.text.all plainChar = true) ∧ printCidrs cs = .ok (printTokens (ns.map Net.text)) ∧ Each SameNet cs ns ∧
    cidrLoop (ns.map Net.text) = .ok (some cs)
  | [], _ => ⟨[], by simp, rfl, .nil, rfl⟩
  | c :: cs, h => by
    obtain ⟨n, h1, h2, h3, h4⟩ := printCidr_ok (h c (by simp))
    obtain ⟨ns, k1, k2, k3, k4⟩ := printCidrs_ok cs (fun x hx => h x (by simp [hx]))
    refine ⟨n :: ns, ?_, ?_, .cons h3 k3, ?_⟩
    · intro m hm
      rw [List.mem_cons] at hm
      rcases hm with rfl | hm
      · exact h1
      · exact k1 m hm
    · exact printCidrs_cons h2 k2 (by rw [Each.ne_nil k3, List.map_eq_nil_iff])
    · simp only [List.map_cons, cidrLoop, h4, Res.ok_bind, k4, Res.pure_eq]

/-! ### Ports -/

theorem item_eq (r : Nat × Nat) : item r = portText r := rfl

/-- Ports that were accepted, and whose text fits in the buffer. -/
def PortsFit (p : Ports) : Prop := ∃ T, Inv p.heap p.set T .leaf ∧ (∀ r ∈ vals T, Allowed 1 65535 r) ∧ (showRanges (vals T)).length < 1024

theorem printPorts_ok {p : Ports} (h : PortsFit p) : ∃ l, printPorts p = .ok (printTokens (l.map portText)) ∧ SamePorts p l ∧ (showRanges l).length < 1024 := by
  obtain ⟨T, H, hr, hl⟩ := h
  refine ⟨vals T, ?_, ⟨H.sp, hr, fun v => H.isIn v⟩, hl⟩
  unfold printPorts
  rw [H.string 1024 (by decide), printL_fits 1024 (by decide) (vals T) 0 [] (by omega)]
  simp only [Res.ok_bind, Res.pure_eq, List.nil_append]
  rw [if_neg (by decide), tokens_show]
  rfl

theorem portText_plain (r : Nat × Nat) : (portText r).all plainChar = true := by
  rw [List.all_eq_true]
  intro c hc
  unfold portText at hc
  split at hc
  · exact digits_plain _ c hc
  · simp only [List.mem_append, List.mem_singleton] at hc
    rcases hc with (hc | hc) | hc
    · exact digits_plain _ c hc
    · subst hc; decide
    · exact digits_plain _ c hc

/-! ### Byte-match expressions -/

/-- The items were all parsed. -/
def Parsed (m : Match.Match) : Prop := ∀ i ∈ m, ∃ s, Match.matchParse s = .ok (some i)

theorem addAll_parsed : ∀ (l : List (List Char)) (m r : Match.Match), Parsed m → Match.matchAddAll m l = .ok (some r) → Parsed r ∧ r.length = m.length + l.length
  | [], m, r, hm, h => by cases h; exact ⟨hm, by simp⟩
  | s :: l, m, r, hm, h => by
    unfold Match.matchAddAll Match.matchAdd at h
    cases hp : Match.matchParse s with
    | ok t =>
      rw [hp] at h
      simp only [Res.ok_bind] at h
      cases t with
      | none => cases h
      | some i =>
        simp only [Res.pure_eq, Res.ok_bind] at h
        have := addAll_parsed l (m ++ [i]) r (by
          intro x hx
          rw [List.mem_append, List.mem_singleton] at hx
          rcases hx with hx | rfl
          · exact hm x hx
          · exact ⟨s, hp⟩) h
        refine ⟨this.1, ?_⟩
        rw [this.2]
        simp only [List.length_append, List.length_cons, List.length_nil]
        omega
    | die => rw [hp] at h; cases h
    | ub => rw [hp] at h; cases h
    | hang => rw [hp] at h; cases h

theorem item_expr {s : List Char} {i : Match.Item} (h : Match.matchParse s = .ok (some i)) :
    ∃ e : BM.Expr, e.WF = true ∧ e.text = Match.itemText i ∧ (∀ c ∈ Match.itemText i, plainChar c = true ∧ c ≠ ',' ∧ c ≠ ' ') ∧ (Match.itemText i).length ≤ 64 := by
  obtain ⟨e, h1, _, _, rfl, h2⟩ := Match.parse_item h
  have hn := ((Match.wf_iff e).1 h1).2.1
  have ho : (Match.itemOf e).offset < 4294967296 := Match.cnum_lt _
  have hm : (Match.itemOf e).mask < 4294967296 := by
    show Match.cmask e.mask < _
    cases e.mask with
    | none => decide
    | some m => exact Match.clamp_lt _
  have hv : (Match.itemOf e).value < 4294967296 := by
    show Match.cval e.value < _
    cases e.value with
    | dec ds => exact Match.cnum_lt _
    | hex ds => exact Match.clamp_lt _
  refine ⟨Match.exprOf e.proto (Match.itemOf e), Match.exprOf_wf _ _ hn, Match.exprOf_text e.proto _ rfl hn, ?_, Match.itemText_le e.proto _ rfl hn ho hm hv⟩
  intro c hc
  have hx : ∀ n, ∀ c ∈ CText.hex n, plainChar c = true ∧ c ≠ ',' ∧ c ≠ ' ' := by
    intro n c hc
    have hh := (Match.hex_facts n).2.1 c hc
    unfold BM.isHex at hh
    have e1 : c ≠ '"' := by rintro rfl; exact absurd hh (by decide)
    have e2 : c ≠ '\\' := by rintro rfl; exact absurd hh (by decide)
    have e3 : c ≠ ',' := by rintro rfl; exact absurd hh (by decide)
    have e4 : c ≠ ' ' := by rintro rfl; exact absurd hh (by decide)
    refine ⟨?_, e3, e4⟩
    unfold plainChar
    simp only [bne_iff_ne, ne_eq, Bool.and_eq_true, decide_eq_true_eq, e1, not_false_eq_true, e2, and_self, true_and]
    simp only [Char.isDigit, Bool.or_eq_true, Bool.and_eq_true, decide_eq_true_eq] at hh
    rcases hh with hh | hh
    · have : 48 ≤ c.toNat := hh.1
      omega
    · have : 97 ≤ c.toNat := hh.1
      omega
  have hd : ∀ n, ∀ c ∈ CText.dec n, plainChar c = true ∧ c ≠ ',' ∧ c ≠ ' ' := by
    intro n c hc
    have := digits_isDigit hc
    refine ⟨digits_plain n c hc, isDigit_ne this (by decide), isDigit_ne this (by decide)⟩
  have hp : ∀ c ∈ Match.protostring (Match.itemOf e).proto, plainChar c = true ∧ c ≠ ',' ∧ c ≠ ' ' := by
    show ∀ c ∈ Match.protostring e.proto.num.toNat, _
    cases e.proto <;> decide
  have e1 : ∀ c ∈ "&0x".toList, plainChar c = true ∧ c ≠ ',' ∧ c ≠ ' ' := by decide
  have e2 : ∀ c ∈ "=0x".toList, plainChar c = true ∧ c ≠ ',' ∧ c ≠ ' ' := by decide
  unfold Match.itemText at hc
  simp only [List.mem_append, List.mem_singleton] at hc
  rcases hc with (((((((hc | hc) | hc) | hc) | hc) | hc) | hc) | hc) | hc
  · exact hp c hc
  · rw [hc]; decide
  · exact hd _ c hc
  · rw [hc]; decide
  · exact hd _ c hc
  · rw [hc]; decide
  · split at hc
    · rw [List.mem_append] at hc
      rcases hc with hc | hc
      · exact e1 c hc
      · exact hx _ c hc
    · cases hc
  · exact e2 c hc
  · exact hx _ c hc

/-- The tokens after the first one. -/
theorem tokens_tail2 : ∀ (m : Match.Match), (∀ i ∈ m, ∀ c ∈ Match.itemText i, c ∉ [',', ' ']) → CText.tokens [',', ' '] (Match.tailText m) = m.map Match.itemText := by
  have key : ∀ (m : Match.Match) (cur : List Char), (∀ i ∈ m, ∀ c ∈ Match.itemText i, c ∉ [',', ' ']) →
      CText.tokensAux [',', ' '] cur (Match.tailText m) = (if cur = [] then [] else [cur.reverse]) ++ m.map Match.itemText := by
    intro m
    induction m with
    | nil => intro cur _; simp [Match.tailText, CText.tokensAux]
    | cons i m ih =>
      intro cur h
      have hi := Match.itemText_len i
      have e : Match.tailText (i :: m) = ',' :: (Match.itemText i ++ Match.tailText m) := by simp [Match.tailText]
      have hne : Match.itemText i ≠ [] := by intro h0; rw [h0] at hi; simp at hi
      have h2 : CText.tokensAux [',', ' '] [] (Match.itemText i ++ Match.tailText m) = Match.itemText i :: m.map Match.itemText := by
        rw [tokensAux_run _ _ _ _ (h i (by simp)), ih _ (fun x hx => h x (by simp [hx]))]
        simp [hne]
      rw [e, CText.tokensAux, if_pos (by simp)]
      split
      · rw [h2]; simp
      · rw [h2]; simp
  intro m h
  have := key m [] h
  simpa [CText.tokens] using this

theorem strtok1_full (i : Match.Item) (m : Match.Match) (h : ∀ c ∈ Match.itemText i, c ≠ ',') :
    ∃ rest, CText.strtok1 [','] (Match.fullText (i :: m)) = some (Match.itemText i, rest) ∧ CText.tokens [',', ' '] rest = CText.tokens [',', ' '] (Match.tailText m) := by
  have hi := Match.itemText_len i
  cases ht : Match.itemText i with
  | nil => rw [ht] at hi; simp at hi
  | cons c t =>
    rw [ht] at h
    have hc : c ≠ ',' := h c (by simp)
    have e : Match.fullText (i :: m) = c :: t ++ Match.tailText m := by simp [Match.fullText, ht]
    have hd : (c :: t ++ Match.tailText m).dropWhile (fun c => decide (c ∈ [','])) = c :: t ++ Match.tailText m := by
      rw [List.cons_append, List.dropWhile_cons_of_neg (by simpa using hc)]
    have hall : ∀ x ∈ c :: t, decide (x ∉ [',']) = true := fun x hx => by simpa using h x hx
    have htail : (Match.tailText m).takeWhile (fun c => decide (c ∉ [','])) = [] ∧ (Match.tailText m).dropWhile (fun c => decide (c ∉ [','])) = Match.tailText m := by
      cases m with
      | nil => simp [Match.tailText]
      | cons j m => simp [Match.tailText]
    unfold CText.strtok1
    dsimp only
    rw [e, hd, if_neg (by simp), List.takeWhile_append_of_pos hall, List.dropWhile_append_of_pos hall, htail.1, htail.2, List.append_nil]
    refine ⟨_, rfl, ?_⟩
    cases m with
    | nil => rfl
    | cons j m => simp [Match.tailText, CText.tokens, CText.tokensAux]

theorem fullText_len : ∀ (m : Match.Match), (∀ i ∈ m, (Match.itemText i).length ≤ 64) → (Match.fullText m).length ≤ 65 * m.length := by
  have key : ∀ (m : Match.Match), (∀ i ∈ m, (Match.itemText i).length ≤ 64) → (Match.tailText m).length ≤ 65 * m.length := by
    intro m
    induction m with
    | nil => simp [Match.tailText]
    | cons i m ih =>
      intro h
      have := ih (fun x hx => h x (by simp [hx]))
      have h1 := h i (by simp)
      simp only [Match.tailText, List.flatMap_cons, List.length_append, List.length_cons] at *
      omega
  intro m h
  cases m with
  | nil => simp [Match.fullText]
  | cons i m =>
    have := key m (fun x hx => h x (by simp [hx]))
    have h1 := h i (by simp)
    simp only [Match.fullText, List.length_append, List.length_cons]
    omega

theorem exprs_of : ∀ (m : Match.Match), Parsed m → ∃ es : List BM.Expr, es.map BM.Expr.text = m.map Match.itemText ∧ Each SameMatch m es ∧ ∀ e ∈ es, e.text.all plainChar = true
  | [], _ => ⟨[], rfl, .nil, by simp⟩
  | i :: m, h => by
    obtain ⟨s, hs⟩ := h i (by simp)
    obtain ⟨e, h1, h2, h3, h4⟩ := item_expr hs
    obtain ⟨es, k1, k2, k3⟩ := exprs_of m (fun x hx => h x (by simp [hx]))
    refine ⟨e :: es, by rw [List.map_cons, List.map_cons, k1, h2], .cons ⟨h1, by rw [h2]; exact Match.reparse hs⟩ k2, ?_⟩
    intro x hx
    rw [List.mem_cons] at hx
    rcases hx with rfl | hx
    · rw [List.all_eq_true, h2]
      intro c hc
      exact (h3 c hc).1
    · exact k3 x hx

theorem printMatch_ok {m : Match.Match} (h : Parsed m) (hl : (Match.fullText m).length < 1024) :
    ∃ es : List BM.Expr, printMatch m = .ok (printTokens (es.map BM.Expr.text)) ∧ Each SameMatch m es ∧ ∀ e ∈ es, e.text.all plainChar = true := by
  obtain ⟨es, h1, h2, h3⟩ := exprs_of m h
  refine ⟨es, ?_, h2, h3⟩
  obtain ⟨rc, out, e1, e2, e3, e4⟩ := Match.string_spec m 1024 (by decide)
  have h0 := e3.2 hl
  subst h0
  have := e4 rfl
  subst this
  unfold printMatch
  rw [e1, h1]
  simp only [Res.ok_bind]
  rw [if_neg (by decide)]
  have hc : ∀ i ∈ m, ∀ c ∈ Match.itemText i, c ∉ [',', ' '] := by
    intro i hi c hc
    obtain ⟨s, hs⟩ := h i hi
    obtain ⟨_, _, _, h3, _⟩ := item_expr hs
    have := (h3 c hc).2
    simp [this.1, this.2]
  cases m with
  | nil => rfl
  | cons i m =>
    obtain ⟨rest, r1, r2⟩ := strtok1_full i m (fun c hx => by have := hc i (by simp) c hx; simp at this; exact this.1)
    rw [r1]
    dsimp only
    rw [r2, tokens_tail2 m (fun x hx => hc x (by simp [hx]))]
    rfl

end Nfqlb.Flow
