import Verif.Proof.Ipu

/-! C57, C58 and C60: the address utility. -/

set_option autoImplicit false

namespace Nfqlb.Props

open Nfqlb Nfqlb.Ipu Nfqlb.Spec Nfqlb.Spec.Ipu Nfqlb.Spec.FL

/-! ### C57 -/

/-- **C57**, IPv4: for each address, sizes with 2 ≤ s1 ≤ s2 ≤ 32, and `int` numbers: if the numbers fit, the printed address has the first s1 bits of the base, then the net number, then the host number; if they do not fit
(or are negative), nothing is printed. The number behind the slash is s1 or s2 as asked for. Missing: s1 = 1, and numbers that are no `int`, see `C57_violated`. -/
theorem C57_makeip4_partial (a : Addr4) (s1 s2 : Nat) (h0 : 2 ≤ s1) (h12 : s1 ≤ s2) (h2 : s2 ≤ 32) (net host : Int)
    (n1 : -2147483648 ≤ net) (n2 : net ≤ 2147483647) (m1 : -2147483648 ≤ host) (m2 : host ≤ 2147483647) (subnet : Option Str) :
    let r := makeip { cidr := cidrText (dotted a) s1 s2, net := Rem.decimal net, host := Rem.decimal host, subnet := subnet }
    (Fit 32 s1 s2 net host → ∃ p, r = .ok p ∧ p.adr.length = 4 ∧ Composed 32 (value a.bytes) s1 s2 net.toNat host.toNat (value p.adr) ∧ p.size = size subnet s1 s2) ∧
    (¬ Fit 32 s1 s2 net host → r = .die) := by
  intro r
  have hr : r = if Fit 32 s1 s2 net host then makeAddr { cidr := cidrText (dotted a) s1 s2, net := Rem.decimal net, host := Rem.decimal host, subnet := subnet } (dotted a) (32 : Nat) s1 s2 net host else .die := by
    have hl : (cidrText (dotted a) s1 s2).length ≤ 52 := by
      have := Flow.dotted_len a
      have := (digits_small s1 (by omega)).1
      have := (digits_small s2 (by omega)).1
      unfold cidrText
      simp only [List.length_append, List.length_cons]
      omega
    show makeip _ = _
    rw [makeip_text _ (dotted a) s1 s2 (dotted_no a '/' (by decide) (by decide)) (by omega) (by omega) hl rfl, if_neg (dotted_no a ':' (by decide) (by decide))]
    dsimp only
    rw [Remote.atoi_decimal net n1 n2, Remote.atoi_decimal host m1 m2]
    exact makeChecked_numbers _ _ 32 s1 s2 net host (Or.inl rfl) (by omega) h12 h2 n1 (by omega) m1 (by omega)
  refine ⟨fun hf => ?_, fun hf => by rw [hr, if_neg hf]⟩
  rw [hr, if_pos hf]
  obtain ⟨f1, f2, f3, f4⟩ := hf
  obtain ⟨nn, rfl⟩ : ∃ n : Nat, net = n := ⟨net.toNat, by omega⟩
  obtain ⟨hh, rfl⟩ : ∃ n : Nat, host = n := ⟨host.toNat, by omega⟩
  have g2 : nn < 2 ^ (s2 - s1) := by
    have : (2 : Int) ^ (s2 - s1) = ((2 ^ (s2 - s1) : Nat) : Int) := by rw [Int.natCast_pow]; rfl
    omega
  have g4 : hh < 2 ^ (32 - s2) := by
    have : (2 : Int) ^ (32 - s2) = ((2 ^ (32 - s2) : Nat) : Int) := by rw [Int.natCast_pow]; rfl
    omega
  obtain ⟨v, v1, v2, v3⟩ := makeAddr_v4 { cidr := cidrText (dotted a) s1 s2, net := Rem.decimal nn, host := Rem.decimal hh, subnet := subnet } a s1 s2 nn hh (by omega) h12 h2 g2 g4
  refine ⟨_, v3, rfl, ?_, rfl⟩
  dsimp only
  rw [value_htonl v v1]
  exact v2

/-- **C57**, IPv6: the same for sizes from 98 on. (The program refuses less than 97, see `C57_refused`.) Missing: s1 = 97, numbers that are no `int`, and text longer than 52 characters, see `C57_violated`. -/
theorem C57_makeip6_partial (a : Addr6) (hw : a.WF) (s1 s2 : Nat) (h0 : 98 ≤ s1) (h12 : s1 ≤ s2) (h2 : s2 ≤ 128) (hl : (cidrText a.text s1 s2).length ≤ 52) (net host : Int)
    (n1 : -2147483648 ≤ net) (n2 : net ≤ 2147483647) (m1 : -2147483648 ≤ host) (m2 : host ≤ 2147483647) (subnet : Option Str) :
    let r := makeip { cidr := cidrText a.text s1 s2, net := Rem.decimal net, host := Rem.decimal host, subnet := subnet }
    (Fit 128 s1 s2 net host → ∃ p, r = .ok p ∧ p.adr.length = 16 ∧ Composed 128 (value a.bytes) s1 s2 net.toNat host.toNat (value p.adr) ∧ p.size = size subnet s1 s2) ∧
    (¬ Fit 128 s1 s2 net host → r = .die) := by
  intro r
  have hr : r = if Fit 128 s1 s2 net host then makeAddr { cidr := cidrText a.text s1 s2, net := Rem.decimal net, host := Rem.decimal host, subnet := subnet } a.text (128 : Nat) s1 s2 net host else .die := by
    show makeip _ = _
    rw [makeip_text _ a.text s1 s2 (fun h => Flow.text_chars a hw _ h rfl) (by omega) (by omega) hl rfl, if_pos (Flow.text_colon a hw)]
    dsimp only
    rw [Remote.atoi_decimal net n1 n2, Remote.atoi_decimal host m1 m2]
    exact makeChecked_numbers _ _ 128 s1 s2 net host (Or.inr ⟨rfl, by omega, rfl⟩) (by omega) h12 h2 n1 (by omega) m1 (by omega)
  refine ⟨fun hf => ?_, fun hf => by rw [hr, if_neg hf]⟩
  rw [hr, if_pos hf]
  obtain ⟨f1, f2, f3, f4⟩ := hf
  obtain ⟨nn, rfl⟩ : ∃ n : Nat, net = n := ⟨net.toNat, by omega⟩
  obtain ⟨hh, rfl⟩ : ∃ n : Nat, host = n := ⟨host.toNat, by omega⟩
  have g2 : nn < 2 ^ (s2 - s1) := by
    have : (2 : Int) ^ (s2 - s1) = ((2 ^ (s2 - s1) : Nat) : Int) := by rw [Int.natCast_pow]; rfl
    omega
  have g4 : hh < 2 ^ (128 - s2) := by
    have : (2 : Int) ^ (128 - s2) = ((2 ^ (128 - s2) : Nat) : Int) := by rw [Int.natCast_pow]; rfl
    omega
  obtain ⟨v, v1, v2, v3⟩ := makeAddr_v6 { cidr := cidrText a.text s1 s2, net := Rem.decimal nn, host := Rem.decimal hh, subnet := subnet } a hw s1 s2 nn hh (by omega) h12 h2 g2 g4
  exact ⟨_, v3, v1, v2, rfl⟩

/-- **C57**, with `--ipv6template`: the IPv4 result is put behind the first 96 bits of the template. -/
theorem C57_template (a : Addr4) (t : Addr6) (hw : t.WF) (s1 s2 net host : Nat) (h0 : 2 ≤ s1) (h12 : s1 ≤ s2) (h2 : s2 ≤ 32) (hn : net < 2 ^ (s2 - s1)) (hh : host < 2 ^ (32 - s2)) (subnet : Option Str) :
    ∃ p, makeip { cidr := cidrText (dotted a) s1 s2, net := Rem.decimal net, host := Rem.decimal host, subnet := subnet, ipv6template := some t.text } = .ok p ∧
      p.adr.take 12 = t.bytes.take 12 ∧ p.adr.length = 16 ∧ Composed 32 (value a.bytes) s1 s2 net host (value (p.adr.drop 12)) ∧ p.size = size subnet (s1 + 96 : Nat) (s2 + 96 : Nat) := by
  have p1 : 2 ^ (s2 - s1) ≤ 1073741824 := Nat.pow_le_pow_right (n := 2) (i := s2 - s1) (j := 30) (by decide) (by omega)
  have p2 : 2 ^ (32 - s2) ≤ 1073741824 := Nat.pow_le_pow_right (n := 2) (i := 32 - s2) (j := 30) (by decide) (by omega)
  have hl : (cidrText (dotted a) s1 s2).length ≤ 52 := by
    have := Flow.dotted_len a
    have := (digits_small s1 (by omega)).1
    have := (digits_small s2 (by omega)).1
    unfold cidrText
    simp only [List.length_append, List.length_cons]
    omega
  have hfit : Fit 32 s1 s2 net host := by
    have q1 : (2 : Int) ^ (s2 - s1) = ((2 ^ (s2 - s1) : Nat) : Int) := by rw [Int.natCast_pow]; rfl
    have q2 : (2 : Int) ^ (32 - s2) = ((2 ^ (32 - s2) : Nat) : Int) := by rw [Int.natCast_pow]; rfl
    exact ⟨by omega, by omega, by omega, by omega⟩
  rw [makeip_text _ (dotted a) s1 s2 (dotted_no a '/' (by decide) (by decide)) (by omega) (by omega) hl rfl, if_neg (dotted_no a ':' (by decide) (by decide))]
  dsimp only
  rw [Remote.atoi_decimal net (by omega) (by omega), Remote.atoi_decimal host (by omega) (by omega)]
  have hck := makeChecked_numbers { cidr := cidrText (dotted a) s1 s2, net := Rem.decimal net, host := Rem.decimal host, subnet := subnet, ipv6template := some t.text } (dotted a) 32 s1 s2 net host (Or.inl rfl) (by omega) h12 h2 (by omega) (by omega) (by omega) (by omega)
  rw [if_pos hfit] at hck
  obtain ⟨v, v1, v2, v3⟩ := makeAddr_v4 { cidr := cidrText (dotted a) s1 s2, net := Rem.decimal net, host := Rem.decimal host, subnet := subnet, ipv6template := some t.text } a s1 s2 net host (by omega) h12 h2 hn hh
  dsimp only at v3
  rw [Flow.pton6_text t hw] at v3
  dsimp only at v3
  have hlen := Flow.Addr6_bytes_length t hw
  have ht : (t.bytes.take 12).length = 12 := by rw [List.length_take, hlen]; rfl
  refine ⟨_, hck.trans v3, ?_, ?_, ?_, ?_⟩
  · dsimp only
    rw [List.take_append_of_le_length (by omega), List.take_of_length_le (by omega)]
  · dsimp only
    rw [List.length_append, ht]; rfl
  · dsimp only
    rw [List.drop_append_of_le_length (by omega), List.drop_of_length_le (by omega), List.nil_append, value_htonl v v1]
    exact v2
  · dsimp only
    rw [Int.natCast_add, Int.natCast_add]
    rfl

/-- **C57**: sizes that are not possible are refused. -/
theorem C57_refused (o : MakeOpts) (t : List Char) (s1 s2 : Nat) (ht : '/' ∉ t) (h1 : s1 < 129) (h2 : s2 < 129) (hl : (cidrText t s1 s2).length ≤ 52) (ho : o.cidr = cidrText t s1 s2)
    (h : s1 = 0 ∨ s2 < s1 ∨ (':' ∉ t ∧ 32 < s2) ∨ (':' ∈ t ∧ s1 < 97)) : makeip o = .die := by
  rw [makeip_text o t s1 s2 ht h1 h2 hl ho]
  unfold makeChecked
  by_cases hc : ':' ∈ t
  · rw [if_pos hc]
    by_cases h97 : s1 < 97
    · rw [if_pos ⟨rfl, by omega⟩]
    · rw [if_neg (by omega)]
      by_cases ho : o.ipv6template.isSome = true
      · rw [if_pos ⟨rfl, ho⟩]
      · rw [if_neg (fun h => ho h.2)]
        have : s2 < s1 := by
          rcases h with h | h | h | h
          · omega
          · exact h
          · exact absurd hc h.1
          · omega
        rw [if_pos (by omega)]
  · rw [if_neg hc]
    rw [if_neg (by omega), if_neg (by omega)]
    have : s1 = 0 ∨ s2 < s1 ∨ 32 < s2 := by
      rcases h with h | h | h | h
      · exact Or.inl h
      · exact Or.inr (Or.inl h)
      · exact Or.inr (Or.inr h.2)
      · exact absurd h.1 hc
    rw [if_pos (by omega)]

/-- **C57** as stated is false.
* A number that does not fit in an `int` is cut (`atoi`, /repo/src/ipu/ipu.c:86-87): host 4294967297 is taken as 1 instead of being refused.
* For s1 = 1 (or 97 with IPv6), `(1 << 31) - 1` overflows, which is undefined (:104).
* The longest form of an IPv6 address with both sizes is refused as too long (:69).
* A size with a leading 0 is octal (:75): `/024` is 20. -/
theorem C57_violated :
    makeip { cidr := "10.0.0.0/8/24".toList, host := "4294967297".toList } = .ok ⟨[10, 0, 0, 1], none⟩ ∧
    makeip { cidr := "128.0.0.0/1/24".toList } = .ub ∧ makeip { cidr := "fd00::/97/120".toList } = .ub ∧
    makeip { cidr := "0000:0000:0000:0000:0000:ffff:192.168.100.200/128/128".toList } = .die ∧
    makeip { cidr := "10.0.0.0/024".toList, host := "4095".toList } = .ok ⟨[10, 0, 15, 255], none⟩ := by
  decide +kernel

/-- **C57**, the sizes that are left out above: with a first size of 1 (97 with IPv6) numbers that do not fit are refused, and everything else is undefined, for each address. -/
theorem C57_exact (a : Adr) (hw : a.WF) (s2 : Nat) (h1 : a.bits - 31 ≤ s2) (h2 : s2 ≤ a.bits) (hl : (cidrText a.text (a.bits - 31) s2).length ≤ 52) (net host : Int)
    (n1 : -2147483648 ≤ net) (n2 : net ≤ 2147483647) (m1 : -2147483648 ≤ host) (m2 : host ≤ 2147483647) (subnet : Option Str) :
    makeip { cidr := cidrText a.text (a.bits - 31) s2, net := Rem.decimal net, host := Rem.decimal host, subnet := subnet } = if Fit a.bits (a.bits - 31) s2 net host then .ub else .die := by
  have hb : a.bits = 32 ∨ a.bits = 128 := by cases a <;> simp [Adr.bits]
  have hslash : '/' ∉ a.text := by
    cases a with
    | v4 x => exact dotted_no x '/' (by decide) (by decide)
    | v6 x => exact fun h => Flow.text_chars x hw _ h rfl
  have hcolon : (if ':' ∈ a.text then (128 : Int) else 32) = (a.bits : Nat) := by
    cases a with
    | v4 x => rw [if_neg (show ':' ∉ (Adr.v4 x).text from dotted_no x ':' (by decide) (by decide))]; rfl
    | v6 x => rw [if_pos (show ':' ∈ (Adr.v6 x).text from Flow.text_colon x hw)]; rfl
  rw [makeip_text _ a.text (a.bits - 31) s2 hslash (by omega) (by omega) hl rfl, hcolon]
  dsimp only
  rw [Remote.atoi_decimal net n1 n2, Remote.atoi_decimal host m1 m2,
    makeChecked_numbers _ _ a.bits (a.bits - 31) s2 net host (by rcases hb with h | h; exact .inl h; exact .inr ⟨h, by omega, rfl⟩) (by omega) h1 h2 n1 (by omega) m1 (by omega)]
  unfold makeAddr
  rw [show ((a.bits : Int) - ((a.bits - 31 : Nat) : Int)) = 31 by omega]
  rfl

example : Fit 32 17 24 5 200 ∧ ¬ Fit 32 17 24 128 0 ∧ ¬ Fit 32 17 24 0 256 ∧ ¬ Fit 32 17 24 (-1) 0 := by decide

example : makeip { cidr := "192.168.128.0/17/24".toList, net := "5".toList, host := "200".toList, subnet := some "2".toList } = .ok ⟨[192, 168, 133, 200], some 24⟩ := by decide +kernel

example : cidrText (dotted ⟨192, 168, 128, 0⟩) 17 24 = "192.168.128.0/17/24".toList := by decide +kernel

example : Composed 32 (value [192, 168, 128, 0]) 17 24 5 200 (value [192, 168, 133, 200]) := by decide +kernel

example : makeip { cidr := "fd00::1:0/112/120".toList, net := "5".toList, host := "200".toList } = .ok ⟨[0xfd, 0, 0, 0, 0, 0, 0, 0, 0, 0, 0, 0, 0, 1, 5, 200], none⟩ := by decide +kernel

example : (⟨["fd00".toList], true, ["1".toList, "0".toList], none⟩ : Addr6).WF ∧ (cidrText (⟨["fd00".toList], true, ["1".toList, "0".toList], none⟩ : Addr6).text 112 120).length ≤ 52 := by decide +kernel

example : (cidrText (Adr.v4 ⟨128, 0, 0, 0⟩).text ((Adr.v4 ⟨128, 0, 0, 0⟩).bits - 31) 24).length ≤ 52 ∧ Fit 32 1 24 5 7 ∧ ¬ Fit 32 1 24 5 256 := by decide +kernel

/-! ### C58 -/

/-- **C58**, when `(1 << 31) - 1` is not computed, that is for sizes other than 1, 33, 65 and 97, and (for size 0) addresses of the same family: for each network and each address, `ipu contains` returns 0 iff family and
the first s bits agree, else 1. Missing: these sizes, and other families for size 0, see `C58_violated`. -/
theorem C58_contains_partial (c a : Adr) (hc : c.WF) (ha : a.WF) (s : Nat) (hs : s ≤ c.bits) (h1 : s % 32 ≠ 1) (h0 : s = 0 → c.bits = a.bits) :
    contains (c.text ++ '/' :: Nat.toDigits 10 s) a.text = if Within c s a then .ok 0 else .ok 1 := by
  have hc4 : ∀ x : Addr4, ':' ∉ dotted x := fun x => dotted_no x ':' (by decide) (by decide)
  have hslash : '/' ∉ c.text := by
    cases c with
    | v4 x => exact dotted_no x '/' (by decide) (by decide)
    | v6 x => exact fun h => Flow.text_chars x hc _ h rfl
  have hbits : c.bits ≤ 128 := by cases c <;> simp [Adr.bits]
  by_cases hz : s = 0
  · subst hz
    have hv : ∀ x : Adr, x.WF → first x.bits 0 x.value = 0 := by
      intro x hx
      unfold first
      apply Nat.div_eq_of_lt
      cases x with
      | v4 y => exact value_lt4 y.bytes rfl
      | v6 y =>
        obtain ⟨w0, w1, w2, w3, _, b0, b1, b2, b3, e⟩ := words_eq y.bytes (Flow.Addr6_bytes_length y hx)
        show value y.bytes < 2 ^ (128 - 0)
        rw [e]
        omega
    have hw : Within c 0 a := ⟨h0 rfl, by rw [hv c hc, hv a ha]⟩
    rw [if_pos hw]
    unfold contains
    rw [strchr_append _ _ _ hslash]
    rfl
  · rw [contains_text c.text a.text s hslash (by omega) (by omega)]
    cases c with
    | v4 x =>
      rw [if_neg (show ':' ∉ (Adr.v4 x).text from hc4 x)]
      cases a with
      | v4 y =>
        rw [if_neg (show ':' ∉ (Adr.v4 y).text from hc4 y)]
        have hs' : s ≤ 32 := hs
        rw [if_neg (by omega)]
        show (match CText.pton4 (dotted y) with | some [a0, a1, a2, a3] => _ | _ => _) = _
        rw [Flow.pton4_dotted]
        obtain ⟨a0, a1, a2, a3, hy⟩ : ∃ b0 b1 b2 b3, y.bytes = [b0, b1, b2, b3] := ⟨_, _, _, _, rfl⟩
        obtain ⟨c0, c1, c2, c3, hx⟩ : ∃ b0 b1 b2 b3, x.bytes = [b0, b1, b2, b3] := ⟨_, _, _, _, rfl⟩
        rw [hy]
        show (match CText.pton4 (dotted x) with | some [c0, c1, c2, c3] => _ | _ => _) = _
        rw [Flow.pton4_dotted, hx]
        dsimp only
        have e1 : ((32 : Int) - s) = ((32 - s : Nat) : Int) := by omega
        rw [e1, lowClear_eq _ (by omega)]
        simp only [Res.ok_bind, Res.pure_eq]
        rw [and_mask _ _ (ntohl_lt _ _ _ _) (by omega), and_mask _ _ (ntohl_lt _ _ _ _) (by omega)]
        have hiff : Within (.v4 x) s (.v4 y) ↔ ntohl c0 c1 c2 c3 / 2 ^ (32 - s) = ntohl a0 a1 a2 a3 / 2 ^ (32 - s) := by
          unfold Within first
          simp only [Adr.bits, Adr.value, true_and]
          rw [hx, hy, value_ntohl, value_ntohl]
        by_cases hw : Within (.v4 x) s (.v4 y)
        · rw [if_pos hw, if_neg (fun h => h ((mul_pow_inj _ _ _).mpr (hiff.mp hw).symm))]
        · rw [if_neg hw, if_pos (fun h => hw (hiff.mpr ((mul_pow_inj _ _ _).mp h).symm))]
      | v6 y =>
        rw [if_pos (show ':' ∈ (Adr.v6 y).text from Flow.text_colon y ha), if_neg (fun h => absurd h.1 (by simp [Adr.bits]))]
    | v6 x =>
      rw [if_pos (show ':' ∈ (Adr.v6 x).text from Flow.text_colon x hc)]
      cases a with
      | v4 y => rw [if_pos (show ':' ∉ (Adr.v4 y).text from hc4 y), if_neg (fun h => absurd h.1 (by simp [Adr.bits]))]
      | v6 y =>
        rw [if_neg (by simpa using (show ':' ∈ (Adr.v6 y).text from Flow.text_colon y ha))]
        have hs' : s ≤ 128 := hs
        show (match CText.pton6 y.text with | none => _ | some a => match CText.pton6 x.text with | none => _ | some c => _) = _
        rw [Flow.pton6_text y ha]
        dsimp only
        rw [Flow.pton6_text x hc]
        dsimp only
        obtain ⟨a0, a1, a2, a3, ea, ba0, ba1, ba2, ba3, va⟩ := words_eq y.bytes (Flow.Addr6_bytes_length y ha)
        obtain ⟨c0, c1, c2, c3, ec, bc0, bc1, bc2, bc3, vc⟩ := words_eq x.bytes (Flow.Addr6_bytes_length x hc)
        have hm : 128 = s + ((128 - s) % 32 + 32 * ((128 - s) / 32)) := by omega
        rw [ea, ec, maskIpv6_eq a0 a1 a2 a3 s ((128 - s) / 32) ((128 - s) % 32) hm (by omega) (by omega) ba0 ba1 ba2 ba3]
        simp only [Res.ok_bind]
        rw [maskIpv6_eq c0 c1 c2 c3 s ((128 - s) / 32) ((128 - s) % 32) hm (by omega) (by omega) bc0 bc1 bc2 bc3]
        simp only [Res.ok_bind, Res.pure_eq]
        have hce := cleared_eq a0 a1 a2 a3 c0 c1 c2 c3 ((128 - s) / 32) ((128 - s) % 32) (by omega) (by omega) ba0 ba1 ba2 ba3 bc0 bc1 bc2 bc3
        have hq : (128 - s) % 32 + 32 * ((128 - s) / 32) = 128 - s := by omega
        rw [hq] at hce
        have hiff : Within (.v6 x) s (.v6 y) ↔ value x.bytes / 2 ^ (128 - s) = value y.bytes / 2 ^ (128 - s) := by
          unfold Within first
          simp only [Adr.bits, Adr.value, true_and]
        rw [va, vc] at hiff
        by_cases hw : Within (.v6 x) s (.v6 y)
        · rw [if_pos hw, if_neg (fun h => h (hce.mpr (hiff.mp hw).symm))]
        · rw [if_neg hw, if_pos (fun h => hw (hiff.mpr (hce.mp h).symm))]

/-- **C58** as stated is false: with size 0, or a size that is no number, anything is "contained", even addresses of the other family and text that is no address (/repo/src/ipu/ipu.c:195); for the sizes 1, 33, 65 and 97
the result is undefined (:169 and :226). -/
theorem C58_violated :
    contains "0.0.0.0/0".toList "fd00::1".toList = .ok 0 ∧ ¬ Within (.v4 ⟨0, 0, 0, 0⟩) 0 (.v6 ⟨["fd00".toList], true, ["1".toList], none⟩) ∧
    contains "10.0.0.0/x".toList "192.168.0.1".toList = .ok 0 ∧ contains "10.0.0.0/0".toList "hello".toList = .ok 0 ∧
    contains "128.0.0.0/1".toList "130.0.0.1".toList = .ub ∧ contains "fd00::/33".toList "fd00::1".toList = .ub := by
  decide +kernel

/-- **C58**, exactly: for each network, each size that is possible for it and each address in text: size 0 contains everything; an address of the other family is not contained; for the sizes 1, 33, 65 and 97 the result is undefined;
else the address is contained iff the first bits agree. -/
theorem C58_exact (c a : Adr) (hc : c.WF) (ha : a.WF) (s : Nat) (hs : s ≤ c.bits) :
    contains (c.text ++ '/' :: Nat.toDigits 10 s) a.text = if s = 0 then .ok 0 else if c.bits ≠ a.bits then .ok 1 else if s % 32 = 1 then .ub else if Within c s a then .ok 0 else .ok 1 := by
  have hc4 : ∀ x : Addr4, ':' ∉ dotted x := fun x => dotted_no x ':' (by decide) (by decide)
  have hslash : '/' ∉ c.text := by
    cases c with
    | v4 x => exact dotted_no x '/' (by decide) (by decide)
    | v6 x => exact fun h => Flow.text_chars x hc _ h rfl
  have hbits : c.bits ≤ 128 := by cases c <;> simp [Adr.bits]
  by_cases h0 : s = 0
  · rw [if_pos h0]
    subst h0
    unfold contains
    rw [strchr_append _ _ _ hslash]
    rfl
  rw [if_neg h0]
  by_cases hb : c.bits = a.bits
  swap
  · rw [if_pos hb, contains_text c.text a.text s hslash (by omega) (by omega)]
    cases c with
    | v4 x =>
      cases a with
      | v4 y => exact absurd rfl hb
      | v6 y => rw [if_neg (show ':' ∉ (Adr.v4 x).text from hc4 x), if_pos (show ':' ∈ (Adr.v6 y).text from Flow.text_colon y ha)]
    | v6 x =>
      cases a with
      | v4 y => rw [if_pos (show ':' ∈ (Adr.v6 x).text from Flow.text_colon x hc), if_pos (show ':' ∉ (Adr.v4 y).text from hc4 y)]
      | v6 y => exact absurd rfl hb
  rw [if_neg (by simpa using hb)]
  by_cases h1 : s % 32 = 1
  swap
  · rw [if_neg h1]
    exact C58_contains_partial c a hc ha s hs h1 (fun h => absurd h h0)
  rw [if_pos h1, contains_text c.text a.text s hslash (by omega) (by omega)]
  cases c with
  | v4 x =>
    cases a with
    | v6 y => simp [Adr.bits] at hb
    | v4 y =>
      rw [if_neg (show ':' ∉ (Adr.v4 x).text from hc4 x), if_neg (show ':' ∉ (Adr.v4 y).text from hc4 y)]
      have hs' : s ≤ 32 := hs
      obtain rfl : s = 1 := by omega
      rw [if_neg (by omega)]
      show (match CText.pton4 (dotted y) with | some [a0, a1, a2, a3] => _ | _ => _) = _
      rw [Flow.pton4_dotted]
      show (match CText.pton4 (dotted x) with | some [c0, c1, c2, c3] => _ | _ => _) = _
      rw [Flow.pton4_dotted]
      rfl
  | v6 x =>
    cases a with
    | v4 y => simp [Adr.bits] at hb
    | v6 y =>
      rw [if_pos (show ':' ∈ (Adr.v6 x).text from Flow.text_colon x hc), if_neg (by simpa using (show ':' ∈ (Adr.v6 y).text from Flow.text_colon y ha))]
      have hs' : s ≤ 128 := hs
      show (match CText.pton6 y.text with | none => _ | some a => match CText.pton6 x.text with | none => _ | some c => _) = _
      rw [Flow.pton6_text y ha]
      dsimp only
      rw [Flow.pton6_text x hc]
      dsimp only
      obtain ⟨a0, a1, a2, a3, ea, _⟩ := words_eq y.bytes (Flow.Addr6_bytes_length y ha)
      have hm : maskIpv6 (words y.bytes) s = .ub := by
        rw [ea]
        have hc : s = 1 ∨ s = 33 ∨ s = 65 ∨ s = 97 := by omega
        unfold maskIpv6
        rcases hc with rfl | rfl | rfl | rfl <;> rw [if_neg (by decide)]
        · rw [maskLoop, maskLoop, maskLoop, maskLoop]; rfl
        · rw [maskLoop, maskLoop, maskLoop]; rfl
        · rw [maskLoop, maskLoop]; rfl
        · rw [maskLoop]; rfl
      rw [hm]
      rfl

example : (Adr.v4 ⟨10, 1, 0, 0⟩).WF ∧ (Adr.v6 ⟨["fd00".toList], true, ["1".toList], none⟩).WF := ⟨trivial, by show Addr6.WF _; decide +kernel⟩

example : contains "10.1.0.0/15".toList "10.0.255.1".toList = .ok 0 ∧ contains "10.1.0.0/16".toList "10.0.255.1".toList = .ok 1 ∧
    contains "fd00:1::/40".toList "fd00:1:ff::1".toList = .ok 0 ∧ contains "fd00:1::/41".toList "fd00:1:ff::1".toList = .ok 1 ∧ contains "10.0.0.0/8".toList "::10.0.0.0".toList = .ok 1 := by decide +kernel

/-! ### C60 -/

/-- **C60.** The address is in fe80::/64, has the modified EUI-64 identifier of the hardware address in the lower half (the universal/local bit inverted, ff:fe in the middle), and the hardware address can be got back from
it; so different hardware addresses have different link-local addresses. -/
theorem C60_linklocal (m : List UInt8) (m0 m1 m2 m3 m4 m5 : UInt8) (hm : m = [m0, m1, m2, m3, m4, m5]) :
    (linklocal m0 m1 m2 m3 m4 m5).length = 16 ∧
    first 128 64 (value (linklocal m0 m1 m2 m3 m4 m5)) = 0xfe80 * 2 ^ 48 ∧
    (linklocal m0 m1 m2 m3 m4 m5).drop 9 = (m.take 3).tail ++ [0xff, 0xfe] ++ m.drop 3 ∧
    ∀ i < 8, ((linklocal m0 m1 m2 m3 m4 m5).getD 8 0).toNat.testBit i = (if i = 1 then !m0.toNat.testBit i else m0.toNat.testBit i) := by
  subst hm
  refine ⟨rfl, ?_, rfl, ?_⟩
  · have e : linklocal m0 m1 m2 m3 m4 m5 = [0xfe, 0x80, 0, 0, 0, 0, 0, 0] ++ [m0 ^^^ 0x02, m1, m2, 0xff, 0xfe, m3, m4, m5] := rfl
    have hlt : ∀ l : List UInt8, value l < 256 ^ l.length := by
      intro l
      induction l with
      | nil => simp [value]
      | cons b l ih =>
        simp only [value, List.length_cons, Nat.pow_succ]
        have := b.toNat_lt
        have h2 : (b.toNat + 1) * 256 ^ l.length ≤ 256 * 256 ^ l.length := Nat.mul_le_mul_right _ (by omega)
        rw [Nat.add_mul, Nat.one_mul] at h2
        rw [Nat.mul_comm (256 ^ l.length)]
        omega
    have h := hlt [m0 ^^^ 0x02, m1, m2, 0xff, 0xfe, m3, m4, m5]
    unfold first
    rw [e, value_append]
    simp only [List.length_cons, List.length_nil, Nat.reduceAdd, Nat.reducePow, Nat.reduceSub] at h ⊢
    generalize value [m0 ^^^ 0x02, m1, m2, 0xff, 0xfe, m3, m4, m5] = v at *
    have : value [0xfe, 0x80, 0, 0, 0, 0, 0, 0] = 18338657682652659712 := by decide
    rw [this]
    omega
  · intro i hi
    show (m0 ^^^ 0x02).toNat.testBit i = _
    rw [UInt8.toNat_xor, Nat.testBit_xor]
    have : ∀ i < 8, (2 : UInt8).toNat.testBit i = decide (i = 1) := by decide
    rw [this i hi]
    by_cases h : i = 1 <;> simp [h]

/-- Different hardware addresses have different link-local addresses. -/
theorem C60_injective (m0 m1 m2 m3 m4 m5 k0 k1 k2 k3 k4 k5 : UInt8) (h : linklocal m0 m1 m2 m3 m4 m5 = linklocal k0 k1 k2 k3 k4 k5) :
    [m0, m1, m2, m3, m4, m5] = [k0, k1, k2, k3, k4, k5] := by
  unfold linklocal at h
  simp only [List.cons.injEq, and_true, true_and] at h
  obtain ⟨h0, rfl, rfl, rfl, rfl, rfl⟩ := h
  have : m0 = k0 := by
    have := congrArg (· ^^^ (2 : UInt8)) h0
    simpa [UInt8.xor_assoc] using this
  rw [this]

example : linklocal 0x52 0x54 0 0x12 0x34 0x56 = [0xfe, 0x80, 0, 0, 0, 0, 0, 0, 0x50, 0x54, 0, 0xff, 0xfe, 0x12, 0x34, 0x56] := by decide

end Nfqlb.Props
