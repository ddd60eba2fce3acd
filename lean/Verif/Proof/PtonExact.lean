import Verif.Proof.FlowCidr
import Verif.Proof.FlowPrint

/-! Which texts `inet_pton` accepts: no others than those that are addresses. -/

set_option autoImplicit false

namespace Nfqlb.Flow

open Nfqlb.Spec Nfqlb.Spec.FL

/-! ### IPv4 -/

theorem digit_char {c : Char} (h : c.isDigit = true) : c.toNat - 48 < 10 ∧ (c.toNat - 48).digitChar = c := by
  unfold Char.isDigit at h
  simp only [Bool.and_eq_true, decide_eq_true_eq] at h
  have h1 : 48 ≤ c.toNat := h.1
  have h2 : c.toNat ≤ 57 := h.2
  have h3 : c = Char.ofNat c.toNat := (Char.ofNat_toNat c).symm
  refine ⟨by omega, ?_⟩
  have : ∀ n, 48 ≤ n → n ≤ 57 → (n - 48).digitChar = Char.ofNat n := by
    intro n a b
    have : n < 58 := by omega
    revert a
    revert b
    revert n
    decide
  rw [this _ h1 h2, ← h3]

/-- The text of the octet read so far. -/
def octText (st : Nat × Bool) : List Char := if st.2 then Nat.toDigits 10 st.1 else []

theorem octetStep_text {st st' : Nat × Bool} {c : Char} (hc : c.isDigit = true) (h0 : st.2 = false → st.1 = 0) (h : CText.octetStep st c = some st') :
    octText st ++ [c] = octText st' ∧ st'.1 ≤ 255 ∧ st'.2 = true := by
  obtain ⟨d1, d2⟩ := digit_char hc
  unfold CText.octetStep at h
  split at h
  · cases h
  · rename_i hz
    dsimp only at h
    split at h
    · cases h
    · rename_i hn
      cases h
      refine ⟨?_, by omega, rfl⟩
      unfold octText
      cases hs : st.2 with
      | false =>
        rw [h0 hs]
        simp only [Nat.zero_mul, Nat.zero_add, if_true, Bool.false_eq_true, if_false, List.nil_append]
        rw [Nat.toDigits_of_lt_base d1, d2]
      | true =>
        have hp : 0 < st.1 := by
          rcases Nat.eq_zero_or_pos st.1 with h | h
          · exact absurd ⟨hs, h⟩ hz
          · exact h
        simp only [if_true]
        have := Nat.toDigits_append_toDigits (b := 10) (by omega) hp d1
        rw [Nat.toDigits_of_lt_base d1, d2] at this
        rw [this, Nat.mul_comm]

/-- Octets with dots between them. -/
def dots : List UInt8 → List Char
  | [] => []
  | [b] => Nat.toDigits 10 b.toNat
  | b :: r => Nat.toDigits 10 b.toNat ++ '.' :: dots r

theorem dots_cons (b : UInt8) (r : List UInt8) (h : r ≠ []) : dots (b :: r) = Nat.toDigits 10 b.toNat ++ '.' :: dots r := by
  cases r with
  | nil => exact absurd rfl h
  | cons a r => rfl

theorem pton4Loop_exact : ∀ (s : List Char) (done : List UInt8) (st : Nat × Bool) (b : List UInt8), (st.2 = false → st.1 = 0) → st.1 ≤ 255 → CText.pton4Loop s done st = some b →
    ∃ l, l ≠ [] ∧ b = done ++ l ∧ octText st ++ s = dots l
  | [], done, st, b, h0, h1, h => by
    simp only [CText.pton4Loop] at h
    split at h
    · rename_i hs
      cases h
      refine ⟨[UInt8.ofNat st.1], by simp, rfl, ?_⟩
      unfold octText dots
      rw [if_pos hs.1, List.append_nil, UInt8.toNat_ofNat_of_lt' (by show st.1 < 256; omega)]
    · cases h
  | c :: s, done, st, b, h0, h1, h => by
    simp only [CText.pton4Loop] at h
    split at h
    · rename_i hc
      cases hs : CText.octetStep st c with
      | none => rw [hs] at h; cases h
      | some st' =>
        rw [hs] at h
        obtain ⟨e1, e2, e3⟩ := octetStep_text hc h0 hs
        obtain ⟨l, l1, l2, l3⟩ := pton4Loop_exact s done st' b (by rw [e3]; intro h; cases h) e2 h
        refine ⟨l, l1, l2, ?_⟩
        rw [← l3, ← e1, List.append_assoc]
        rfl
    · split at h
      · rename_i hc
        split at h
        · cases h
        · obtain ⟨l, l1, l2, l3⟩ := pton4Loop_exact s _ (0, false) b (fun _ => rfl) (by decide) h
          refine ⟨UInt8.ofNat st.1 :: l, by simp, by rw [l2, List.append_assoc]; rfl, ?_⟩
          rw [dots_cons _ _ l1, ← l3, UInt8.toNat_ofNat_of_lt' (by show st.1 < 256; omega), hc.1]
          unfold octText
          rw [if_pos hc.2]
          rfl
      · cases h

/-- `inet_pton` accepts four decimal numbers up to 255, without leading zeros, and nothing else. -/
theorem pton4_exact (s : List Char) (b : List UInt8) : CText.pton4 s = some b ↔ ∃ a : Addr4, s = dotted a ∧ b = a.bytes := by
  constructor
  · intro h
    have hl := pton4_length s [] (0, false) h
    obtain ⟨l, l1, l2, l3⟩ := pton4Loop_exact s [] (0, false) b (fun _ => rfl) (by decide) h
    rw [List.nil_append] at l2
    subst l2
    match b, hl with
    | [w, x, y, z], _ =>
      refine ⟨⟨w, x, y, z⟩, ?_, rfl⟩
      have : s = dots [w, x, y, z] := l3
      rw [this]
      simp [dots, dotted]
  · rintro ⟨a, rfl, rfl⟩
    exact pton4_dotted a

/-! ### IPv6 -/

theorem hex_digitVal (c : Char) (h : CText.digitVal c < 16) : (hexDigit c).isSome = true := by
  unfold CText.digitVal at h
  unfold hexDigit
  split
  · rfl
  · split
    · rfl
    · split
      · rfl
      · rename_i h1 h2 h3
        rw [if_neg h1, if_neg h2, if_neg h3] at h
        omega

/-- What the loop has when it ends: the last group is stored. -/
def last (st : CText.Pton6) : List UInt8 := if st.xd > 0 then st.flush.tp else st.tp

theorem flush_tp (st : CText.Pton6) (g : List Char) (h : st.val = hexNum g) : st.flush.tp = st.tp ++ groupBytes g := by
  unfold CText.Pton6.flush groupBytes
  rw [h]
  dsimp only
  congr 3
  apply UInt8.toNat_inj.1
  simp

theorem hexNum_snoc (g : List Char) (c : Char) : hexNum (g ++ [c]) = 16 * hexNum g + (hexDigit c).getD 0 := by
  unfold hexNum
  rw [List.foldl_append]
  rfl

/-- The loop after `::`, or when there is none: the rest of the text is groups and possibly an IPv4 address. -/
theorem pton6Loop_exact : ∀ (s cur g : List Char) (st r : CText.Pton6), cur = g ++ s → (∀ c ∈ g, (hexDigit c).isSome = true) → g.length = st.xd → st.xd ≤ 4 → st.val = hexNum g →
    CText.pton6Loop s cur st = some r →
    (∃ (gs : List (List Char)) (tail : Option Addr4), (∀ x ∈ gs, GroupWF x) ∧ g ++ s = colons (gs ++ tail.toList.map dotted) ∧ r.colonp = st.colonp ∧
      last r = st.tp ++ gs.flatMap groupBytes ++ tail.toList.flatMap Addr4.bytes) ∨
    (st.colonp = none ∧ ∃ (gs : List (List Char)) (rest : List Char), (∀ x ∈ gs, GroupWF x) ∧ g ++ s = gs.flatMap (· ++ [':']) ++ ':' :: rest ∧
      CText.pton6Loop rest rest ⟨st.tp ++ gs.flatMap groupBytes, some (st.tp ++ gs.flatMap groupBytes).length, 0, 0⟩ = some r ∧
      (st.tp.length ≤ 16 → (st.tp ++ gs.flatMap groupBytes).length ≤ 16)) := by
  intro s
  induction s with
  | nil =>
    intro cur g st r hcur hg hl h4 hv h
    simp only [CText.pton6Loop, Option.some.injEq] at h
    subst h
    left
    by_cases hx : st.xd = 0
    · have : g = [] := List.eq_nil_of_length_eq_zero (by omega)
      subst this
      exact ⟨[], none, by simp, rfl, rfl, by simp [last, hx]⟩
    · refine ⟨[g], none, ?_, by simp [colons], rfl, ?_⟩
      · intro x hxm
        rw [List.mem_singleton] at hxm
        subst hxm
        exact ⟨by omega, by omega, hg⟩
      · unfold last
        rw [if_pos (by omega), flush_tp st g hv]
        simp
  | cons c s ih =>
    intro cur g st r hcur hg hl h4 hv h
    simp only [CText.pton6Loop] at h
    split at h
    · rename_i hc
      split at h
      · cases h
      · rename_i hx
        have hh := hex_digitVal c hc
        have := ih cur (g ++ [c]) { st with xd := st.xd + 1, val := st.val * 16 + CText.digitVal c } r (by rw [hcur]; simp) (by
            intro x hxm
            rw [List.mem_append, List.mem_singleton] at hxm
            rcases hxm with hxm | rfl
            · exact hg x hxm
            · exact hh) (by simp [hl]) (by show st.xd + 1 ≤ 4; omega) (by
            show st.val * 16 + CText.digitVal c = _
            rw [hexNum_snoc, hv, (digitVal_hex c hh).1]; omega) h
        simpa only [List.append_assoc, List.singleton_append] using this
    · split at h
      · rename_i hc
        subst hc
        split at h
        · rename_i hx
          split at h
          · cases h
          · rename_i hcp
            right
            have : g = [] := List.eq_nil_of_length_eq_zero (by omega)
            subst this
            refine ⟨by simpa using hcp, [], s, by simp, rfl, ?_, by simp⟩
            have hv0 : st.val = 0 := hv
            simp only [List.flatMap_nil, List.append_nil]
            rw [hx, hv0] at h
            exact h
        · rename_i hx
          split at h
          · cases h
          · rename_i hs
            split at h
            · cases h
            · rename_i h16
              have hgw : GroupWF g := ⟨by omega, by omega, hg⟩
              have hft := flush_tp st g hv
              rcases ih s [] st.flush r rfl (by simp) rfl (by simp [CText.Pton6.flush]) rfl h with ⟨gs, tail, k1, k2, k3, k4⟩ | ⟨k0, gs, rest, k1, k2, k3, k5⟩
              · left
                refine ⟨g :: gs, tail, ?_, ?_, k3, ?_⟩
                · intro x hxm
                  rcases List.mem_cons.1 hxm with rfl | hxm
                  · exact hgw
                  · exact k1 x hxm
                · rw [List.cons_append, colons_cons, ← k2]
                  · rfl
                  · intro he
                    rw [he] at k2
                    exact hs k2
                · rw [k4, hft]; simp
              · right
                refine ⟨k0, g :: gs, rest, ?_, ?_, ?_, ?_⟩
                · intro x hxm
                  rcases List.mem_cons.1 hxm with rfl | hxm
                  · exact hgw
                  · exact k1 x hxm
                · rw [List.nil_append] at k2
                  rw [k2]; simp
                · rw [hft] at k3
                  simpa only [List.flatMap_cons, List.append_assoc] using k3
                · intro _
                  rw [hft] at k5
                  have := k5 (by rw [List.length_append]; show st.tp.length + 2 ≤ 16; omega)
                  simpa only [List.flatMap_cons, List.append_assoc] using this
      · split at h
        · rename_i hc
          cases hp : CText.pton4 cur with
          | none => rw [hp] at h; cases h
          | some b =>
            rw [hp] at h
            cases h
            obtain ⟨a, e1, e2⟩ := (pton4_exact cur b).1 hp
            left
            refine ⟨[], some a, by simp, ?_, rfl, ?_⟩
            · rw [← hcur, e1]; simp [colons]
            · simp [last, e2]
        · cases h

theorem colon_flat (gs : List (List Char)) (h : gs ≠ []) : gs.flatMap (· ++ [':']) = colons gs ++ [':'] := by
  induction gs with
  | nil => exact absurd rfl h
  | cons g r ih =>
    cases r with
    | nil => simp [colons]
    | cons a r => rw [List.flatMap_cons, ih (by simp), colons_cons g (a :: r) (by simp)]; simp only [List.append_assoc, List.cons_append, List.nil_append]

theorem bytes_len (a : Addr4) : a.bytes.length = 4 := rfl

theorem pton6End_last {r : CText.Pton6} {b : List UInt8} (h : CText.pton6End r = some b) : (r.tp.length ≤ 16 → (last r).length ≤ 16) ∧
    ((r.colonp = none ∧ (last r).length = 16 ∧ b = last r) ∨ ∃ n, r.colonp = some n ∧ (last r).length ≠ 16 ∧ b = (last r).take n ++ List.replicate (16 - (last r).length) 0 ++ (last r).drop n) := by
  unfold CText.pton6End at h
  split at h
  · cases h
  · rename_i hx
    dsimp only at h
    have hl : (if r.xd > 0 then r.flush else r).tp = last r := by unfold last; split <;> rfl
    have hc : (if r.xd > 0 then r.flush else r).colonp = r.colonp := by split <;> rfl
    rw [hl, hc] at h
    refine ⟨?_, ?_⟩
    · intro h1
      unfold last
      split
      · have : r.flush.tp.length = r.tp.length + 2 := by simp [CText.Pton6.flush]
        omega
      · exact h1
    · split at h
      · rename_i n hn
        split at h
        · cases h
        · rename_i h16
          cases h
          exact .inr ⟨n, hn, h16, rfl⟩
      · rename_i hn
        split at h
        · rename_i h16
          cases h
          exact .inl ⟨hn, h16, rfl⟩
        · cases h

/-- The end of an address with `::`. -/
theorem pton6_gap (left : List (List Char)) (hleft : ∀ x ∈ left, GroupWF x) (rest : List Char) (b : List UInt8) (hlen : (left.flatMap groupBytes).length ≤ 16)
    (h : (CText.pton6Loop rest rest ⟨left.flatMap groupBytes, some (left.flatMap groupBytes).length, 0, 0⟩).bind CText.pton6End = some b) :
    ∃ a : Addr6, a.WF ∧ colons left ++ [':', ':'] ++ rest = a.text ∧ b = a.bytes := by
  rw [Option.bind_eq_some_iff] at h
  obtain ⟨r, h1, h2⟩ := h
  rcases pton6Loop_exact rest rest [] _ r rfl (by simp) rfl (by simp) rfl h1 with ⟨gs, tail, k1, k2, k3, k4⟩ | ⟨k0, _⟩
  · obtain ⟨e0, e1⟩ := pton6End_last h2
    have e0 := e0 (pton6Loop_length _ _ _ hlen h1)
    rcases e1 with ⟨e1, _⟩ | ⟨n, e1, e2, e3⟩
    · rw [e1] at k3; cases k3
    · rw [e1] at k3
      have hn : n = (left.flatMap groupBytes).length := by cases k3; rfl
      have hL := congrArg List.length k4
      rw [List.length_append, List.length_append] at hL
      have g1 := groups_len left
      have g2 := groups_len gs
      have g3 := tail_len tail
      dsimp only at hL
      refine ⟨⟨left, true, gs, tail⟩, ⟨?_, ?_⟩, ?_, ?_⟩
      · intro x hx
        rcases List.mem_append.1 hx with hx | hx
        · exact hleft x hx
        · exact k1 x hx
      · show left.length + gs.length + 2 * tail.toList.length ≤ 7
        omega
      · rw [show rest = colons (gs ++ tail.toList.map dotted) from k2]
        rfl
      · rw [e3, k4, hn]
        unfold Addr6.bytes
        dsimp only
        rw [List.append_assoc (left.flatMap groupBytes), List.take_left' rfl, List.drop_left' rfl]
        congr 3
        rw [List.length_append, List.length_append]
        omega
  · cases k0

/-- `inet_pton` accepts the addresses of RFC 4291, and nothing else. -/
theorem pton6_exact (s : List Char) (b : List UInt8) : CText.pton6 s = some b ↔ ∃ a : Addr6, a.WF ∧ s = a.text ∧ b = a.bytes := by
  constructor
  · intro h
    match s, h with
    | [], h => cases h
    | ':' :: [], h => cases h
    | ':' :: c :: t, h =>
      by_cases hc : c = ':'
      · subst hc
        have e : CText.pton6 (':' :: ':' :: t) = (CText.pton6Loop t t ⟨[], some 0, 0, 0⟩).bind CText.pton6End := rfl
        rw [e] at h
        obtain ⟨a, a1, a2, a3⟩ := pton6_gap [] (by simp) t b (by simp) h
        exact ⟨a, a1, by rw [← a2]; rfl, a3⟩
      · have e : CText.pton6 (':' :: c :: t) = none := by
          simp only [CText.pton6]
          split
          · rename_i heq; cases heq; exact absurd rfl hc
          · rfl
        rw [e] at h
        cases h
    | c :: t, h =>
      by_cases hc : c = ':'
      · subst hc
        cases t with
        | nil => cases h
        | cons d t =>
          by_cases hd : d = ':'
          · subst hd
            have e : CText.pton6 (':' :: ':' :: t) = (CText.pton6Loop t t ⟨[], some 0, 0, 0⟩).bind CText.pton6End := rfl
            rw [e] at h
            obtain ⟨a, a1, a2, a3⟩ := pton6_gap [] (by simp) t b (by simp) h
            exact ⟨a, a1, by rw [← a2]; rfl, a3⟩
          · have e : CText.pton6 (':' :: d :: t) = none := by
              simp only [CText.pton6]
              split
              · rename_i heq; cases heq; exact absurd rfl hd
              · rfl
            rw [e] at h
            cases h
      · rw [pton6_nocolon c t hc, Option.bind_eq_some_iff] at h
        obtain ⟨r, h1, h2⟩ := h
        rcases pton6Loop_exact (c :: t) (c :: t) [] _ r rfl (by simp) rfl (by simp) rfl h1 with ⟨gs, tail, k1, k2, k3, k4⟩ | ⟨_, gs, rest, k1, k2, k3, k5⟩
        · rcases (pton6End_last h2).2 with ⟨e1, e2, e3⟩ | ⟨n, e1, _⟩
          · have hL := congrArg List.length k4
            have g2 := groups_len gs
            have g3 := tail_len tail
            rw [List.length_append, List.length_append] at hL
            simp only [List.length_nil] at hL
            refine ⟨⟨gs, false, [], tail⟩, ⟨by simpa using k1, ?_⟩, ?_, ?_⟩
            · exact ⟨rfl, by show gs.length + 2 * tail.toList.length = 8; omega⟩
            · exact k2
            · rw [e3, k4]
              unfold Addr6.bytes
              dsimp only
              rw [List.nil_append, List.flatMap_nil, List.nil_append, show 16 - (gs.flatMap groupBytes).length - (tail.toList.flatMap Addr4.bytes).length = 0 by omega]
              simp
          · rw [e1] at k3; cases k3
        · have hne : gs ≠ [] := by
            rintro rfl
            simp at k2
            exact hc k2.1
          have hlen : (gs.flatMap groupBytes).length ≤ 16 := by
            simpa using k5 (by simp)
          obtain ⟨a, a1, a2, a3⟩ := pton6_gap gs k1 rest b hlen (by
            rw [Option.bind_eq_some_iff]
            exact ⟨r, by simpa using k3, h2⟩)
          refine ⟨a, a1, ?_, a3⟩
          rw [← a2]
          rw [List.nil_append] at k2
          rw [k2, colon_flat gs hne]
          simp
  · rintro ⟨a, a1, rfl, rfl⟩
    exact pton6_text a a1

/-! ### Networks -/

/-- What a network is that was accepted. -/
theorem parseCidr_exact {arg : List Char} {c : Cidr} (h : parseCidr arg = .ok (some c)) :
    ∃ (s t rest : List Char) (p : Nat) (q : List Char) (a : Addr6), cidrBuf arg = .ok s ∧ s = t ++ '/' :: rest ∧ '/' ∉ t ∧ CText.scanU rest = some (p, q) ∧ a.WF ∧ t = a.text ∧
      (if ':' ∈ arg then p else u32 (p + 96)) ≤ 128 ∧ ∀ x : List UInt8, x.length = 16 → (addrInCidr c x = true ↔ SamePrefix (if ':' ∈ arg then p else u32 (p + 96)) a.bytes x) := by
  unfold parseCidr at h
  cases hb : cidrBuf arg with
  | ok s =>
    rw [hb] at h
    simp only [Res.ok_bind, Res.pure_eq, bitMask_eq] at h
    split at h
    · cases h
    · rename_i r hr
      split at h
      · cases h
      · rename_i m q hm
        generalize hkk : (if ':' ∈ arg then m else u32 (m + 96)) = k at h
        split at h
        · cases h
        · rename_i hk
          split at h
          · cases h
          · rename_i adr hadr
            cases h
            have hs := List.takeWhile_append_dropWhile (p := fun c => c != '/') (l := s)
            unfold CText.strchr at hr
            have hno : '/' ∉ s.takeWhile (fun c => c != '/') := fun hx => by
              have := List.all_eq_true.1 (List.all_takeWhile (p := fun c => c != '/') (l := s)) '/' hx
              simp at this
            obtain ⟨a, a1, a2, a3⟩ := (pton6_exact _ _).1 hadr
            cases hd : s.dropWhile (fun c => c != '/') with
            | nil => rw [hd] at hr; cases hr
            | cons d rest =>
              rw [hd] at hr hs
              cases hr
              have hd' : d = '/' := by
                have := List.head?_dropWhile_not (fun c => c != '/') s
                rw [hd] at this
                simpa using this
              subst hd'
              refine ⟨s, _, rest, m, q, a, rfl, hs.symm, hno, hm, a1, a2, ?_, ?_⟩
              · rw [hkk]; omega
              · intro x hx
                rw [hkk, inCidr_iff _ _ k (by omega) (pton6_length hadr) hx, a3]
  | die => rw [hb] at h; cases h
  | ub => rw [hb] at h; cases h
  | hang => rw [hb] at h; cases h

theorem first_colon {x y a b : List Char} (hx : ':' ∉ x) (ha : ':' ∉ a) (h : x ++ ':' :: y = a ++ ':' :: b) : x = a ∧ y = b := by
  have e : ∀ (l r : List Char), ':' ∉ l → (l ++ ':' :: r).takeWhile (fun c => c != ':') = l := by
    intro l r hl
    rw [List.takeWhile_append_of_pos (by intro c hc; simp only [bne_iff_ne, ne_eq]; rintro rfl; exact hl hc), List.takeWhile_cons_of_neg (by simp), List.append_nil]
  have h1 : x = a := by rw [← e x y hx, ← e a b ha, h]
  subst h1
  have := List.append_cancel_left h
  cases this
  exact ⟨rfl, rfl⟩

theorem colons_two {l : List (List Char)} {g t : List Char} (hl : ∀ x ∈ l, ':' ∉ x) (hg : ':' ∉ g) (ht : ':' ∉ t) (h : colons l = g ++ ':' :: t) : l = [g, t] := by
  match l, hl, h with
  | [], _, h => simp [colons] at h
  | [x], hl, h =>
    exfalso
    apply hl x (by simp)
    have : colons [x] = x := rfl
    rw [← this, h]
    simp
  | x :: y :: r, hl, h =>
    rw [colons_cons _ _ (by simp)] at h
    obtain ⟨h1, h2⟩ := first_colon (hl x (by simp)) hg h
    cases r with
    | nil => rw [h1, ← h2]; rfl
    | cons z r =>
      exfalso
      apply ht
      rw [← h2, colons_cons _ _ (by simp)]
      simp

theorem group_no_colon {g : List Char} (h : GroupWF g) : ':' ∉ g := fun hc => absurd (h.2.2 ':' hc) (by decide)

theorem dotted_no_colon (a : Addr4) : ':' ∉ dotted a := by
  unfold dotted
  simp only [List.mem_append, List.mem_singleton, not_or]
  have hd : ∀ n, ':' ∉ Nat.toDigits 10 n := fun n hc => absurd (Nat.isDigit_of_mem_toDigits (by omega) (by omega) hc) (by decide)
  simp [hd]

theorem elems_no_colon {a : Addr6} (h : a.WF) : (∀ x ∈ a.left ++ a.tail.toList.map dotted, ':' ∉ x) ∧ ∀ x ∈ a.right ++ a.tail.toList.map dotted, ':' ∉ x := by
  have h1 := h.1
  constructor <;>
  · intro x hx
    rcases List.mem_append.1 hx with hx | hx
    · exact group_no_colon (h1 x (by simp [hx]))
    · rw [List.mem_map] at hx
      obtain ⟨b, _, rfl⟩ := hx
      exact dotted_no_colon b

theorem colons_not_colon {l : List (List Char)} (hl : ∀ x ∈ l, ':' ∉ x ∧ x ≠ []) {r : List Char} : colons l ≠ ':' :: r := by
  match l, hl with
  | [], _ => simp [colons]
  | [x], hl =>
    intro h
    have h : x = ':' :: r := h
    exact (hl x (by simp)).1 (by rw [h]; simp)
  | x :: y :: s, hl =>
    intro h
    rw [colons_cons _ _ (by simp)] at h
    cases x with
    | nil => exact (hl [] (by simp)).2 rfl
    | cons c x =>
      cases h
      exact (hl _ List.mem_cons_self).1 (by simp)

/-- What comes after `::ffff:` in the text of an address: an IPv4 address, or one group. -/
theorem mapped_text {a : Addr6} (h : a.WF) {t : List Char} (ht : ':' ∉ t) (e : "::ffff:".toList ++ t = a.text) : (∃ b : Addr4, t = dotted b) ∨ GroupWF t := by
  have hne : ∀ x ∈ a.left ++ a.tail.toList.map dotted, ':' ∉ x ∧ x ≠ [] := by
    intro x hx
    refine ⟨(elems_no_colon h).1 x hx, ?_⟩
    rcases List.mem_append.1 hx with hx | hx
    · exact group_ne (h.1 x (by simp [hx]))
    · rw [List.mem_map] at hx
      obtain ⟨b, _, rfl⟩ := hx
      exact dotted_ne b
  unfold Addr6.text at e
  split at e
  · have hl : a.left = [] := by
      cases hc : colons a.left with
      | nil =>
        apply Classical.byContradiction
        intro hn
        exact colons_ne a.left hn (fun g hg => group_ne (h.1 g (by simp [hg]))) hc
      | cons d r =>
        rw [hc] at e
        have : d = ':' := by
          have := congrArg List.head? e
          simpa using this.symm
        subst this
        exact absurd hc (colons_not_colon (fun x hx => hne x (by simp [hx])))
    rw [hl] at e
    have e2 : colons (a.right ++ a.tail.toList.map dotted) = "ffff".toList ++ ':' :: t := by
      have : ':' :: ':' :: ("ffff".toList ++ ':' :: t) = ':' :: ':' :: colons (a.right ++ a.tail.toList.map dotted) := e
      rw [List.cons.injEq, List.cons.injEq] at this
      exact this.2.2.symm
    have h2 := colons_two (elems_no_colon h).2 (by decide) ht e2
    have hm : t ∈ a.right ++ a.tail.toList.map dotted := by rw [h2]; simp
    rcases List.mem_append.1 hm with hm | hm
    · exact .inr (h.1 t (by simp [hm]))
    · rw [List.mem_map] at hm
      obtain ⟨b, _, rfl⟩ := hm
      exact .inl ⟨b, rfl⟩
  · exact absurd e.symm (colons_not_colon hne)

end Nfqlb.Flow
