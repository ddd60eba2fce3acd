import Verif.Model.FlowPrint
import Verif.Proof.FlowBuild
import Mathlib.Tactic.IntervalCases
import Mathlib.Tactic.Ring

/-! What `inet_ntop` writes is an address in text, for the address it was given. -/

set_option autoImplicit false

namespace Nfqlb.CText

open Nfqlb.Spec Nfqlb.Spec.FL

/-- What is shown about the run of zeros. -/
def runOk (zs : List Bool) : Option (Nat × Nat) → Bool
  | none => true
  | some (b, l) => decide (2 ≤ l) && decide (b + l ≤ 8) && (List.range 8).all (fun i => decide (i < b) || decide (b + l ≤ i) || zs.getD i false)

theorem bestRun_all : ∀ z0 z1 z2 z3 z4 z5 z6 z7 : Bool, runOk [z0, z1, z2, z3, z4, z5, z6, z7] (bestRun [z0, z1, z2, z3, z4, z5, z6, z7]) = true := by decide +kernel

theorem bestRun_zero {z0 z1 z2 z3 z4 z5 z6 z7 : Bool} {b l : Nat} (e : bestRun [z0, z1, z2, z3, z4, z5, z6, z7] = some (b, l)) :
    2 ≤ l ∧ b + l ≤ 8 ∧ ∀ i < 8, b ≤ i → i < b + l → [z0, z1, z2, z3, z4, z5, z6, z7].getD i false = true := by
  have h := bestRun_all z0 z1 z2 z3 z4 z5 z6 z7
  rw [e] at h
  simp only [runOk, Bool.and_eq_true, decide_eq_true_eq, List.all_eq_true, List.mem_range, Bool.or_eq_true] at h
  refine ⟨h.1.1, h.1.2, fun i h1 h2 h3 => ?_⟩
  rcases h.2 i h1 with (h4 | h4) | h4
  · omega
  · omega
  · exact h4

theorem hexDigit_digit : ∀ c : Char, BM.isHex c = true → (hexDigit c).isSome ∧ (hexDigit c).getD 0 = BM.digit c := by
  intro c h
  unfold BM.isHex at h
  unfold hexDigit BM.digit
  by_cases hd : c.isDigit = true
  · have h1 : '0' ≤ c ∧ c ≤ '9' := by
      simp only [Char.isDigit, Bool.and_eq_true, decide_eq_true_eq] at hd
      exact hd
    rw [if_pos h1, if_pos hd]
    simp
  · have h1 : ¬ ('0' ≤ c ∧ c ≤ '9') := by
      simp only [Char.isDigit, Bool.and_eq_true, decide_eq_true_eq] at hd
      exact hd
    simp only [hd, Bool.false_or, Bool.and_eq_true, decide_eq_true_eq] at h
    rw [if_neg h1, if_pos h, if_neg hd]
    simp

theorem hexNum_positional (ds : List Char) (h : ∀ c ∈ ds, BM.isHex c = true) : hexNum ds = BM.positional 16 ds := by
  have key : ∀ (ds : List Char) (n : Nat), (∀ c ∈ ds, BM.isHex c = true) → ds.foldl (fun n c => 16 * n + (hexDigit c).getD 0) n = n * 16 ^ ds.length + BM.positional 16 ds := by
    intro ds
    induction ds with
    | nil => intro n _; simp [BM.positional]
    | cons c ds ih =>
      intro n h
      rw [List.foldl_cons, ih _ (fun x hx => h x (by simp [hx])), (hexDigit_digit c (h c (by simp))).2]
      simp only [BM.positional, List.length_cons, Nat.pow_succ]
      ring_nf
  unfold hexNum
  rw [key ds 0 h]
  simp

theorem hex_group (n : Nat) (h : n < 65536) : GroupWF (hex n) ∧ groupBytes (hex n) = [UInt8.ofNat (n / 256), UInt8.ofNat (n % 256)] := by
  obtain ⟨h1, h2, h3, _⟩ := Match.hex_facts n
  refine ⟨⟨List.length_pos_iff.mpr h1, ?_, fun c hc => (hexDigit_digit c (h2 c hc)).1⟩, ?_⟩
  · unfold hex
    rw [Nat.length_toDigits_le_iff (by decide) (by decide)]
    exact h
  · unfold groupBytes
    rw [hexNum_positional _ h2, h3]

theorem word_lt (s : List UInt8) (i : Nat) : word s i < 65536 := by
  unfold word
  have h1 := (s.getD (2 * i) 0).toNat_lt
  have h2 := (s.getD (2 * i + 1) 0).toNat_lt
  omega

theorem word_bytes (a b : UInt8) : [UInt8.ofNat ((a.toNat * 256 + b.toNat) / 256), UInt8.ofNat ((a.toNat * 256 + b.toNat) % 256)] = [a, b] := by
  have h1 := a.toNat_lt
  have h2 := b.toNat_lt
  have e1 : (a.toNat * 256 + b.toNat) / 256 = a.toNat := by omega
  have e2 : (a.toNat * 256 + b.toNat) % 256 = b.toNat := by omega
  rw [e1, e2]
  simp

theorem word_zero (a b : UInt8) (h : a.toNat * 256 + b.toNat = 0) : a = 0 ∧ b = 0 := by
  have h1 : a.toNat = 0 := by omega
  have h2 : b.toNat = 0 := by omega
  exact ⟨UInt8.toNat_inj.mp (by simpa using h1), UInt8.toNat_inj.mp (by simpa using h2)⟩

/-- The address as it is written: `gap` is where `::` is, and its length in words. -/
def written (src : List UInt8) : Option (Nat × Nat) → Addr6
  | none => ⟨(List.range 8).map (fun i => hex (word src i)), false, [], none⟩
  | some (b, l) =>
    if b = 0 ∧ (l = 6 ∨ (l = 5 ∧ word src 5 = 65535)) then
      ⟨[], true, if l = 5 then [hex (word src 5)] else [], some ⟨src.getD 12 0, src.getD 13 0, src.getD 14 0, src.getD 15 0⟩⟩
    else ⟨(List.range b).map (fun i => hex (word src i)), true, (List.range' (b + l) (8 - (b + l))).map (fun i => hex (word src i)), none⟩

theorem group_word (a b : UInt8) : GroupWF (hex (a.toNat * 256 + b.toNat)) ∧ groupBytes (hex (a.toNat * 256 + b.toNat)) = [a, b] := by
  have h1 := a.toNat_lt
  have h2 := b.toNat_lt
  have := hex_group (a.toNat * 256 + b.toNat) (by omega)
  rw [word_bytes] at this
  exact this

theorem drop_two (s : List UInt8) (i : Nat) (h : 2 * i + 2 ≤ s.length) : s.drop (2 * i) = s.getD (2 * i) 0 :: s.getD (2 * i + 1) 0 :: s.drop (2 * (i + 1)) := by
  rw [List.drop_eq_getElem_cons (by omega), List.drop_eq_getElem_cons (by omega)]
  simp only [List.getD_eq_getElem?_getD, List.getElem?_eq_getElem (show 2 * i < s.length by omega), List.getElem?_eq_getElem (show 2 * i + 1 < s.length by omega), Option.getD_some]
  rfl

theorem words_bytes (s : List UInt8) : ∀ (n i : Nat), 2 * (i + n) ≤ s.length → (List.range' i n).flatMap (fun i => groupBytes (hex (word s i))) = (s.drop (2 * i)).take (2 * n)
  | 0, i, _ => by simp
  | n + 1, i, h => by
    rw [List.range'_succ, List.flatMap_cons, words_bytes s n (i + 1) (by omega), drop_two s i (by omega)]
    unfold word
    rw [(group_word _ _).2]
    rfl

theorem words_zero (s : List UInt8) : ∀ (n i : Nat), 2 * (i + n) ≤ s.length → (∀ j, i ≤ j → j < i + n → word s j = 0) → (s.drop (2 * i)).take (2 * n) = List.replicate (2 * n) 0
  | 0, i, _, _ => by simp
  | n + 1, i, h, hz => by
    obtain ⟨h1, h2⟩ := word_zero _ _ (hz i (by omega) (by omega))
    have := words_zero s n (i + 1) (by omega) (fun j h1 h2 => hz j (by omega) (by omega))
    rw [drop_two s i (by omega), h1, h2]
    show 0 :: 0 :: (s.drop (2 * (i + 1))).take (2 * n) = _
    rw [this]
    rfl

theorem ntop_written (src : List UInt8) (h : src.length = 16) (best : Option (Nat × Nat)) (hb : ∀ b l, best = some (b, l) → 2 ≤ l ∧ b + l ≤ 8 ∧ ∀ i < 8, b ≤ i → i < b + l → word src i = 0) :
    (written src best).WF ∧ (written src best).bytes = src ∧
    (written src best).text = ntopLoop src best 8 0 ++ ntopTail best := by
  have g := fun i => (hex_group _ (word_lt src i)).1
  cases best with
  | none =>
    refine ⟨?_, ?_, ?_⟩
    · refine ⟨?_, ?_⟩
      · intro x hx
        simp only [written, List.append_nil, List.mem_map] at hx
        obtain ⟨i, _, rfl⟩ := hx
        exact g i
      · simp [written]
    · have e := words_bytes src 8 0 (by omega)
      rw [← List.range_eq_range'] at e
      simp only [written, Addr6.bytes, List.flatMap_map, e, Option.toList, List.flatMap_nil, List.append_nil]
      rw [List.take_of_length_le (by rw [List.length_drop]; omega)]
      simp [h]
    · simp [written, Addr6.text, List.range, List.range.loop, ntopLoop, ntopTail, colons]
  | some x =>
    obtain ⟨b, l⟩ := x
    obtain ⟨h1, h2, h3⟩ := hb b l rfl
    refine ⟨?_, ?_, ?_⟩
    · unfold written
      dsimp only
      split
      · rename_i hc
        refine ⟨?_, ?_⟩
        · intro x hx
          simp only [List.nil_append] at hx
          split at hx
          · rw [List.mem_singleton] at hx; subst hx; exact g 5
          · cases hx
        · rw [if_pos rfl]
          dsimp only
          by_cases h5 : l = 5 <;> simp [h5]
      · refine ⟨?_, ?_⟩
        · intro x hx
          simp only [List.mem_append, List.mem_map] at hx
          rcases hx with ⟨i, _, rfl⟩ | ⟨i, _, rfl⟩ <;> exact g i
        · simp
          omega
    · have hz := words_zero src l b (by omega) (fun j p q => h3 j (by omega) p q)
      have hsplit : src = src.take (2 * b) ++ List.replicate (2 * l) 0 ++ src.drop (2 * (b + l)) := by
        rw [← hz]
        conv_lhs => rw [← List.take_append_drop (2 * b) src, ← List.take_append_drop (2 * l) (src.drop (2 * b)), List.drop_drop]
        rw [show 2 * b + 2 * l = 2 * (b + l) by omega, List.append_assoc]
      unfold written
      dsimp only
      split
      · rename_i hc
        obtain ⟨rfl, hc⟩ := hc
        have h6 := drop_two src 6 (by omega)
        have h7 := drop_two src 7 (by omega)
        have h8 : src.drop (2 * (7 + 1)) = [] := List.drop_eq_nil_iff.mpr (by omega)
        rw [h8] at h7
        rw [h7] at h6
        rcases hc with rfl | ⟨rfl, hw⟩
        · rw [show 2 * (0 + 6) = 2 * 6 from rfl, h6] at hsplit
          unfold Addr6.bytes
          exact hsplit.symm
        · have h5 := drop_two src 5 (by omega)
          rw [h6] at h5
          rw [show 2 * (0 + 5) = 2 * 5 from rfl, h5] at hsplit
          unfold Addr6.bytes
          have := (group_word (src.getD (2 * 5) 0) (src.getD (2 * 5 + 1) 0)).2
          simp only [if_true, List.flatMap_cons, List.flatMap_nil, List.append_nil]
          unfold word
          rw [this]
          exact hsplit.symm
      · have e1 := words_bytes src b 0 (by omega)
        have e2 := words_bytes src (8 - (b + l)) (b + l) (by omega)
        rw [← List.range_eq_range'] at e1
        unfold Addr6.bytes
        simp only [List.flatMap_map, e1, e2, Option.toList, List.flatMap_nil, List.append_nil]
        have t1 : ((src.drop (2 * 0)).take (2 * b)) = src.take (2 * b) := rfl
        have t2 : (src.drop (2 * (b + l))).take (2 * (8 - (b + l))) = src.drop (2 * (b + l)) := List.take_of_length_le (by rw [List.length_drop]; omega)
        rw [t1, t2, List.length_take, List.length_drop]
        rw [show 16 - min (2 * b) src.length - (src.length - 2 * (b + l)) = 2 * l by omega]
        exact hsplit.symm
    · have hb6 : b ≤ 6 := by omega
      have hl8 : l ≤ 8 := by omega
      clear h3 hb g
      unfold written
      dsimp only
      by_cases hw : word src 5 = 65535 <;> interval_cases b <;> interval_cases l <;> first | omega | simp [hw, ntopLoop, ntopTail, Addr6.text, colons, List.range, List.range.loop, List.range', ntop4, dotted, dec]

/-- What `inet_ntop` writes is an address in text; it is the address. -/
theorem ntop_text (src : List UInt8) (h : src.length = 16) : ∃ a : Addr6, a.WF ∧ a.text = ntop6 src ∧ a.bytes = src := by
  obtain ⟨h1, h2, h3⟩ := ntop_written src h (bestRun ((List.range 8).map (fun i => decide (word src i = 0)))) (by
    intro b l e
    have e' : bestRun [decide (word src 0 = 0), decide (word src 1 = 0), decide (word src 2 = 0), decide (word src 3 = 0), decide (word src 4 = 0), decide (word src 5 = 0), decide (word src 6 = 0), decide (word src 7 = 0)] = some (b, l) := e
    obtain ⟨k1, k2, k3⟩ := bestRun_zero e'
    refine ⟨k1, k2, fun i h8 hb hl => ?_⟩
    have := k3 i h8 hb hl
    clear k3 e e'
    interval_cases i <;> simpa using this)
  exact ⟨_, h1, h3, h2⟩

end Nfqlb.CText
