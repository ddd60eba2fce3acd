import Verif.Spec.Flow
import Verif.Proof.RangeText

/-! Networks: masks bit by bit, and the text of addresses. -/

set_option autoImplicit false

namespace Nfqlb.Flow

open Nfqlb.Spec Nfqlb.Spec.FL

/-- The bytes of the mask. -/
def maskOf (mask : Nat) : List UInt8 :=
  if mask > 64 then be64 18446744073709551615 ++ be64 (u64 (18446744073709551615 * 2 ^ (128 - mask)))
  else (if mask = 0 then be64 0 else be64 (u64 (18446744073709551615 * 2 ^ (64 - mask)))) ++ be64 0

theorem bitMask_eq (p : Nat) : bitMask p = .ok (maskOf p) := by
  unfold bitMask maskOf shl64
  split
  · rw [if_neg (by omega)]; rfl
  · split
    · rfl
    · rw [if_neg (by omega)]; rfl

theorem maskOf_bit : ∀ p < 129, ∀ i < 128, bit (maskOf p) i = decide (i < p) := by decide +kernel

theorem maskOf_length (p : Nat) : (maskOf p).length = 16 := by
  unfold maskOf be64
  split <;> (try split) <;> simp

theorem bit_and (a m : List UInt8) (h : a.length = m.length) (i : Nat) : bit (maskAdr a m) i = (bit a i && bit m i) := by
  unfold bit maskAdr
  by_cases hi : i / 8 < a.length
  · simp only [List.getD_eq_getElem?_getD, List.getElem?_zipWith, List.getElem?_eq_getElem hi, List.getElem?_eq_getElem (show i / 8 < m.length by omega), Option.getD_some,
      UInt8.toNat_and, Nat.testBit_and]
  · simp only [List.getD_eq_getElem?_getD, List.getElem?_zipWith, List.getElem?_eq_none (show a.length ≤ i / 8 by omega), Option.getD_none]
    simp

theorem maskAdr_length (a m : List UInt8) (h : a.length = m.length) : (maskAdr a m).length = a.length := by
  unfold maskAdr; rw [List.length_zipWith]; omega

/-- Addresses are equal if all bits are. -/
theorem ext_bits (a b : List UInt8) (n : Nat) (ha : a.length = n) (hb : b.length = n) (h : ∀ i < 8 * n, bit a i = bit b i) : a = b := by
  apply List.ext_getElem (by omega)
  intro j h1 h2
  apply UInt8.toNat_inj.1
  apply Nat.eq_of_testBit_eq
  intro k
  by_cases hk : k < 8
  · have := h (8 * j + (7 - k)) (by omega)
    unfold bit at this
    rw [show (8 * j + (7 - k)) / 8 = j by omega, show 7 - (8 * j + (7 - k)) % 8 = k by omega] at this
    simpa [List.getD_eq_getElem?_getD, h1, h2] using this
  · have h3 := a[j].toNat_lt; have h4 := b[j].toNat_lt
    have h256 : 2 ^ 8 ≤ 2 ^ k := Nat.pow_le_pow_right (by omega) (by omega)
    rw [Nat.testBit_lt_two_pow (by omega), Nat.testBit_lt_two_pow (by omega)]

/-- Comparing under the mask is comparing the first bits. -/
theorem inCidr_iff (a x : List UInt8) (p : Nat) (hp : p ≤ 128) (ha : a.length = 16) (hx : x.length = 16) :
    addrInCidr ⟨maskAdr a (maskOf p), maskOf p⟩ x = true ↔ SamePrefix p a x := by
  have hl := maskOf_length p
  unfold addrInCidr
  rw [decide_eq_true_eq]
  dsimp only
  constructor
  · intro h i hi
    have h2 : bit (maskAdr a (maskOf p)) i = bit (maskAdr x (maskOf p)) i := by rw [h]
    rw [bit_and _ _ (by omega), bit_and _ _ (by omega), maskOf_bit p (by omega) i (by omega), decide_eq_true hi] at h2
    simpa using h2
  · intro h
    apply ext_bits _ _ 16 (by rw [maskAdr_length _ _ (by omega)]; exact ha) (by rw [maskAdr_length _ _ (by omega)]; exact hx)
    intro i hi
    rw [bit_and _ _ (by omega), bit_and _ _ (by omega), maskOf_bit p (by omega) i (by omega)]
    by_cases hip : i < p
    · rw [h i hip]
    · simp [hip]

/-! ### Text of IPv4 addresses -/

theorem pton4_run (rest : List Char) (done : List UInt8) : ∀ (ds : List Char) (st : Nat × Bool), (∀ c ∈ ds, c.isDigit = true) →
    CText.pton4Loop (ds ++ rest) done st = (ds.foldlM CText.octetStep st).bind (fun st => CText.pton4Loop rest done st)
  | [], st, _ => rfl
  | c :: ds, st, h => by
    have hc := h c (by simp)
    simp only [List.cons_append, CText.pton4Loop, hc, if_true, List.foldlM_cons]
    cases hs : CText.octetStep st c with
    | none => rfl
    | some st' => exact pton4_run rest done ds st' (fun c hc => h c (by simp [hc]))

theorem octet_run : ∀ b < 256, (Nat.toDigits 10 b).foldlM CText.octetStep (0, false) = some (b, true) := by decide +kernel

theorem octet_len : ∀ b < 256, (Nat.toDigits 10 b).length ≤ 3 := by decide +kernel

theorem pton4_octet (b : UInt8) (rest : List Char) (done : List UInt8) : CText.pton4Loop (Nat.toDigits 10 b.toNat ++ rest) done (0, false) = CText.pton4Loop rest done (b.toNat, true) := by
  rw [pton4_run _ _ _ _ (fun c hc => Nat.isDigit_of_mem_toDigits (by omega) (by omega) hc), octet_run _ b.toNat_lt]
  rfl

theorem pton4_dot (n : Nat) (rest : List Char) (done : List UInt8) (h : done.length ≠ 3) :
    CText.pton4Loop ('.' :: rest) done (n, true) = CText.pton4Loop rest (done ++ [UInt8.ofNat n]) (0, false) := by
  rw [CText.pton4Loop, if_neg (by decide), if_pos ⟨rfl, rfl⟩, if_neg h]

theorem pton4_dotted (a : Addr4) : CText.pton4 (dotted a) = some a.bytes := by
  unfold CText.pton4 dotted
  simp only [List.append_assoc, List.cons_append, List.nil_append]
  rw [pton4_octet, pton4_dot _ _ _ (by simp), pton4_octet, pton4_dot _ _ _ (by simp), pton4_octet, pton4_dot _ _ _ (by simp)]
  have := pton4_octet a.d [] [UInt8.ofNat a.a.toNat, UInt8.ofNat a.b.toNat, UInt8.ofNat a.c.toNat]
  rw [List.append_nil] at this
  simp only [List.nil_append, List.cons_append]
  rw [this]
  simp [CText.pton4Loop, Addr4.bytes]

/-! ### Text of IPv6 addresses -/

theorem digitVal_hex (c : Char) (h : (hexDigit c).isSome) : CText.digitVal c = (hexDigit c).getD 0 ∧ CText.digitVal c < 16 := by
  unfold hexDigit at *
  unfold CText.digitVal
  split
  · rename_i hc
    obtain ⟨h1, h2⟩ := hc
    have h3 : c.toNat ≤ 57 := h2
    have h4 : 48 ≤ c.toNat := h1
    refine ⟨rfl, ?_⟩; omega
  · split
    · rename_i hc
      obtain ⟨h1, h2⟩ := hc
      have h3 : c.toNat ≤ 102 := h2
      have h4 : 97 ≤ c.toNat := h1
      refine ⟨?_, ?_⟩
      · show c.toNat - 87 = c.toNat - 97 + 10; omega
      · omega
    · split
      · rename_i hc
        obtain ⟨h1, h2⟩ := hc
        have h3 : c.toNat ≤ 70 := h2
        have h4 : 65 ≤ c.toNat := h1
        refine ⟨?_, ?_⟩
        · show c.toNat - 55 = c.toNat - 65 + 10; omega
        · omega
      · rename_i h1 h2 h3
        rw [if_neg h1, if_neg h2, if_neg h3] at h
        cases h

theorem digit_hex (c : Char) (h : c.isDigit = true) : (hexDigit c).isSome := by
  unfold hexDigit
  have : '0' ≤ c ∧ c ≤ '9' := by
    unfold Char.isDigit at h
    simp only [Bool.and_eq_true, decide_eq_true_eq] at h
    exact ⟨h.1, h.2⟩
  rw [if_pos this]; rfl

/-- The loop over digits. -/
theorem pton6_run (rest cur : List Char) (tp : List UInt8) (cp : Option Nat) : ∀ (g : List Char) (xd val : Nat), (∀ c ∈ g, (hexDigit c).isSome) → xd + g.length ≤ 4 →
    CText.pton6Loop (g ++ rest) cur ⟨tp, cp, xd, val⟩ = CText.pton6Loop rest cur ⟨tp, cp, xd + g.length, g.foldl (fun n c => 16 * n + (hexDigit c).getD 0) val⟩
  | [], xd, val, _, _ => rfl
  | c :: g, xd, val, h, hl => by
    obtain ⟨h1, h2⟩ := digitVal_hex c (h c (by simp))
    simp only [List.length_cons] at hl
    simp only [List.cons_append, CText.pton6Loop]
    rw [if_pos h2, if_neg (by omega), pton6_run rest cur tp cp g (xd + 1) _ (fun c hc => h c (by simp [hc])) (by omega), h1, List.length_cons, List.foldl_cons,
      Nat.mul_comm val 16, show xd + 1 + g.length = xd + (g.length + 1) by omega]

theorem pton6_group (g rest cur : List Char) (tp : List UInt8) (cp : Option Nat) (hg : GroupWF g) :
    CText.pton6Loop (g ++ rest) cur ⟨tp, cp, 0, 0⟩ = CText.pton6Loop rest cur ⟨tp, cp, g.length, hexNum g⟩ := by
  rw [pton6_run _ _ _ _ _ _ _ hg.2.2 (by have := hg.2.1; omega), Nat.zero_add]; rfl

theorem pton6_colon (rest cur : List Char) (tp : List UInt8) (cp : Option Nat) (g : List Char) (hg : GroupWF g) (hr : rest ≠ []) (ht : tp.length + 2 ≤ 16) :
    CText.pton6Loop (':' :: rest) cur ⟨tp, cp, g.length, hexNum g⟩ = CText.pton6Loop rest rest ⟨tp ++ groupBytes g, cp, 0, 0⟩ := by
  have h1 := hg.1
  rw [CText.pton6Loop, if_neg (by decide), if_pos rfl]
  dsimp only
  rw [if_neg (by omega), if_neg hr, if_neg (by omega)]
  congr 1
  unfold CText.Pton6.flush groupBytes
  congr 3
  · congr 1
    apply UInt8.toNat_inj.1
    simp

/-- The end, given the bytes. -/
def fin (tp : List UInt8) (cp : Option Nat) : Option (List UInt8) :=
  match cp with
  | some n => if tp.length = 16 then none else some (tp.take n ++ List.replicate (16 - tp.length) 0 ++ tp.drop n)
  | none => if tp.length = 16 then some tp else none

theorem colons_cons (g : List Char) (r : List (List Char)) (h : r ≠ []) : colons (g :: r) = g ++ ':' :: colons r := by
  cases r with
  | nil => exact absurd rfl h
  | cons a r => simp [colons]

theorem group_ne {g : List Char} (h : GroupWF g) : g ≠ [] := by
  intro he; subst he; exact absurd h.1 (by decide)

theorem dotted_ne (a : Addr4) : dotted a ≠ [] := by unfold dotted; simp

theorem colons_ne : ∀ (gs : List (List Char)), gs ≠ [] → (∀ g ∈ gs, g ≠ []) → colons gs ≠ []
  | [], h, _ => absurd rfl h
  | [g], _, h => by simpa [colons] using h g (by simp)
  | g :: h :: r, _, hg => by simp [colons]

/-- The dotted end. -/
theorem pton6_dotted (a : Addr4) (tp : List UInt8) (cp : Option Nat) (h : tp.length + 4 ≤ 16) :
    CText.pton6Loop (dotted a) (dotted a) ⟨tp, cp, 0, 0⟩ = some ⟨tp ++ a.bytes, cp, 0, 0⟩ := by
  have h4 := pton4_dotted a
  generalize hcur : dotted a = cur at h4
  have : ∃ rest, cur = Nat.toDigits 10 a.a.toNat ++ '.' :: rest := by
    subst hcur; unfold dotted; simp only [List.append_assoc, List.cons_append, List.nil_append]; exact ⟨_, rfl⟩
  obtain ⟨rest, hr⟩ := this
  rw [show CText.pton6Loop cur cur ⟨tp, cp, 0, 0⟩ = CText.pton6Loop (Nat.toDigits 10 a.a.toNat ++ '.' :: rest) cur ⟨tp, cp, 0, 0⟩ by rw [← hr]]
  rw [pton6_run _ _ _ _ _ _ _ (fun c hc => digit_hex c (Nat.isDigit_of_mem_toDigits (by omega) (by omega) hc)) (by have := octet_len _ a.a.toNat_lt; omega)]
  rw [CText.pton6Loop, if_neg (by decide), if_neg (by decide), if_pos ⟨rfl, h⟩, h4]

/-- Groups and possibly an IPv4 address up to the end of the text. -/
theorem pton6_groups (tail : Option Addr4) (cp : Option Nat) : ∀ (gs : List (List Char)) (tp : List UInt8), (∀ g ∈ gs, GroupWF g) → tp.length + 2 * gs.length + 4 * tail.toList.length ≤ 16 →
    (CText.pton6Loop (colons (gs ++ tail.toList.map dotted)) (colons (gs ++ tail.toList.map dotted)) ⟨tp, cp, 0, 0⟩).bind CText.pton6End =
      fin (tp ++ (gs.flatMap groupBytes ++ tail.toList.flatMap Addr4.bytes)) cp
  | [], tp, _, hl => by
    cases tail with
    | none =>
      simp only [Option.toList_none, List.map_nil, List.append_nil, colons, CText.pton6Loop, Option.bind_some, List.flatMap_nil]
      unfold CText.pton6End fin
      rw [if_neg (fun h => absurd h.1 (by simp))]
      dsimp only
      rw [if_neg (by simp)]
      cases cp <;> rfl
    | some a =>
      simp only [Option.toList_some, List.length_cons, List.length_nil] at hl
      simp only [Option.toList_some, List.map_cons, List.map_nil, List.nil_append, colons, List.flatMap_cons, List.flatMap_nil, List.append_nil]
      rw [pton6_dotted a tp cp (by omega)]
      simp only [Option.bind_some]
      unfold CText.pton6End fin
      rw [if_neg (fun h => absurd h.1 (by simp))]
      dsimp only
      rw [if_neg (by simp)]
      cases cp <;> rfl
  | g :: gs, tp, hg, hl => by
    have hgw := hg g (by simp)
    simp only [List.length_cons] at hl
    by_cases hn : gs ++ tail.toList.map dotted = []
    · obtain ⟨rfl, h2⟩ := List.append_eq_nil_iff.1 hn
      have ht : tail = none := by cases tail with | none => rfl | some a => simp at h2
      subst ht
      simp only [Option.toList_none, List.map_nil, List.append_nil, colons, List.flatMap_cons, List.flatMap_nil]
      have := pton6_group g [] g tp cp hgw
      rw [List.append_nil] at this
      rw [this]
      simp only [CText.pton6Loop, Option.bind_some]
      have h1 := hgw.1
      unfold CText.pton6End fin
      simp only [Option.toList_none, List.length_nil] at hl
      rw [if_neg (by dsimp only; omega)]
      dsimp only
      rw [if_pos (by omega)]
      have hfl : (CText.Pton6.flush ⟨tp, cp, g.length, hexNum g⟩) = ⟨tp ++ groupBytes g, cp, 0, 0⟩ := by
        unfold CText.Pton6.flush groupBytes
        congr 3
        congr 1
        apply UInt8.toNat_inj.1
        simp
      rw [hfl]
      cases cp <;> rfl
    · rw [List.cons_append, colons_cons _ _ hn, pton6_group _ _ _ _ _ hgw]
      rw [pton6_colon _ _ _ _ _ hgw (colons_ne _ hn ?_) (by omega)]
      · rw [pton6_groups tail cp gs _ (fun g h => hg g (by simp [h])) (by simp only [List.length_append, groupBytes, List.length_cons, List.length_nil]; omega)]
        simp [List.append_assoc]
      · intro x hx
        rw [List.mem_append, List.mem_map] at hx
        rcases hx with hx | ⟨a, _, rfl⟩
        · exact group_ne (hg x (by simp [hx]))
        · exact dotted_ne a

/-- Groups up to `::`. -/
theorem pton6_left (rest : List Char) : ∀ (gs : List (List Char)) (cur : List Char) (tp : List UInt8), gs ≠ [] → (∀ g ∈ gs, GroupWF g) → tp.length + 2 * gs.length ≤ 16 →
    CText.pton6Loop (colons gs ++ ':' :: ':' :: rest) cur ⟨tp, none, 0, 0⟩ =
      CText.pton6Loop rest rest ⟨tp ++ gs.flatMap groupBytes, some (tp ++ gs.flatMap groupBytes).length, 0, 0⟩
  | [], _, _, h, _, _ => absurd rfl h
  | [g], cur, tp, _, hg, hl => by
    have hgw := hg g (by simp)
    simp only [List.length_cons, List.length_nil] at hl
    simp only [colons, List.flatMap_cons, List.flatMap_nil, List.append_nil]
    rw [pton6_group _ _ _ _ _ hgw, pton6_colon _ _ _ _ _ hgw (by simp) (by omega), CText.pton6Loop, if_neg (by decide), if_pos rfl]
    dsimp only
    rw [if_pos rfl, if_neg (by decide)]
  | g :: h :: gs, cur, tp, _, hg, hl => by
    have hgw := hg g (by simp)
    simp only [List.length_cons] at hl
    rw [colons_cons _ _ (by simp), List.append_assoc, pton6_group _ _ _ _ _ hgw, List.cons_append, pton6_colon _ _ _ _ _ hgw (by simp) (by omega)]
    rw [pton6_left rest (h :: gs) _ _ (by simp) (fun g h => hg g (by simp [h])) (by simp only [List.length_append, groupBytes, List.length_cons, List.length_nil]; omega)]
    rw [List.flatMap_cons (x := g), List.append_assoc]

theorem groups_len (gs : List (List Char)) : (gs.flatMap groupBytes).length = 2 * gs.length := by
  induction gs with
  | nil => rfl
  | cons g gs ih => rw [List.flatMap_cons, List.length_append, ih]; simp only [groupBytes, List.length_cons, List.length_nil]; omega

theorem tail_len (t : Option Addr4) : (t.toList.flatMap Addr4.bytes).length = 4 * t.toList.length := by
  cases t <;> rfl

theorem Addr6_bytes_length (a : Addr6) (h : a.WF) : a.bytes.length = 16 := by
  obtain ⟨_, h⟩ := h
  unfold Addr6.bytes
  simp only [List.length_append, List.length_replicate, groups_len, tail_len]
  split at h
  · omega
  · obtain ⟨h1, h2⟩ := h
    rw [h1] at *
    simp only [List.length_nil]
    omega

/-- The first character of a group is not a colon. -/
theorem group_head {g : List Char} (h : GroupWF g) : ∃ c r, g = c :: r ∧ c ≠ ':' := by
  cases g with
  | nil => exact absurd h.1 (by decide)
  | cons c r =>
    refine ⟨c, r, rfl, ?_⟩
    rintro rfl
    exact absurd (h.2.2 ':' (by simp)) (by decide)

theorem pton6_nocolon (c : Char) (r : List Char) (h : c ≠ ':') : CText.pton6 (c :: r) = (CText.pton6Loop (c :: r) (c :: r) ⟨[], none, 0, 0⟩).bind CText.pton6End := by
  unfold CText.pton6
  split
  · rename_i h2; cases h2
  · rename_i r' h2; simp only [List.cons.injEq] at h2; exact absurd h2.1 h
  · rfl

theorem colons_head (g : List Char) (gs : List (List Char)) (h : GroupWF g) : ∃ c r, colons (g :: gs) = c :: r ∧ c ≠ ':' := by
  obtain ⟨c, r, rfl, hc⟩ := group_head h
  cases gs with
  | nil => exact ⟨c, r, rfl, hc⟩
  | cons h gs => exact ⟨c, _, by rw [colons_cons _ _ (by simp)]; rfl, hc⟩

/-- An address is read as it is written. -/
theorem pton6_text (a : Addr6) (h : a.WF) : CText.pton6 a.text = some a.bytes := by
  obtain ⟨left, gap, right, tail⟩ := a
  obtain ⟨hg, hl⟩ := h
  dsimp only at hg hl
  unfold Addr6.text Addr6.bytes
  dsimp only
  have hgl : ∀ g ∈ left, GroupWF g := fun g h => hg g (by simp [h])
  have hgr : ∀ g ∈ right, GroupWF g := fun g h => hg g (by simp [h])
  cases gap with
  | true =>
    simp only [if_true] at hl ⊢
    have key : CText.pton6 (colons left ++ [':', ':'] ++ colons (right ++ tail.toList.map dotted)) =
        (CText.pton6Loop (colons (right ++ tail.toList.map dotted)) (colons (right ++ tail.toList.map dotted)) ⟨left.flatMap groupBytes, some (left.flatMap groupBytes).length, 0, 0⟩).bind CText.pton6End := by
      cases left with
      | nil =>
        simp only [colons, List.nil_append, List.cons_append, CText.pton6, List.flatMap_nil, List.length_nil]
        rw [CText.pton6Loop, if_neg (by decide), if_pos rfl]
        dsimp only
        rw [if_pos rfl, if_neg (by decide)]
        rfl
      | cons g left =>
        obtain ⟨c, r, hc, hcc⟩ := colons_head g left (hgl g (by simp))
        have h1 := pton6_nocolon c (r ++ [':', ':'] ++ colons (right ++ tail.toList.map dotted)) hcc
        rw [hc]
        simp only [List.cons_append] at h1 ⊢
        rw [h1, show c :: (r ++ [':', ':'] ++ colons (right ++ tail.toList.map dotted)) = colons (g :: left) ++ ':' :: ':' :: colons (right ++ tail.toList.map dotted) by rw [hc]; simp]
        rw [pton6_left _ (g :: left) _ _ (by simp) hgl (by simp only [List.length_cons] at hl ⊢; simp only [List.length_nil]; omega)]
        simp only [List.nil_append]
    rw [key, pton6_groups tail _ right _ hgr (by rw [groups_len]; omega)]
    unfold fin
    dsimp only
    rw [if_neg (by simp only [List.length_append, groups_len, tail_len]; omega), List.take_left, List.drop_left]
    simp only [List.length_append, Nat.sub_sub]
  | false =>
    simp only [Bool.false_eq_true, if_false] at hl ⊢
    obtain ⟨rfl, hl⟩ := hl
    have hne : left ≠ [] := by
      rintro rfl
      cases tail <;> simp at hl
    obtain ⟨g, left, rfl⟩ : ∃ g r, left = g :: r := by cases left with | nil => exact absurd rfl hne | cons g r => exact ⟨g, r, rfl⟩
    have hgs := pton6_groups tail none (g :: left) [] hgl (by simp only [List.length_nil]; omega)
    have hbl : ((g :: left).flatMap groupBytes).length + (tail.toList.flatMap Addr4.bytes).length = 16 := by rw [groups_len, tail_len]; omega
    have hh : ∃ c r, colons (g :: left ++ tail.toList.map dotted) = c :: r ∧ c ≠ ':' := by
      rw [List.cons_append]; exact colons_head g _ (hgl g (by simp))
    obtain ⟨c, r, hc, hcc⟩ := hh
    rw [hc] at hgs ⊢
    rw [pton6_nocolon c r hcc, hgs]
    unfold fin
    simp only [List.nil_append, List.length_append]
    rw [if_pos hbl]
    simp only [List.flatMap_nil, List.nil_append]
    rw [show 16 - ((g :: left).flatMap groupBytes).length - (([] : List UInt8).length + (tail.toList.flatMap Addr4.bytes).length) = 0 by simp only [List.length_nil]; omega]
    simp

end Nfqlb.Flow
