import Verif.Proof.FlowCidr

/-! Networks in text. -/

set_option autoImplicit false

namespace Nfqlb.Flow

open Nfqlb.Spec Nfqlb.Spec.FL Nfqlb.RS

theorem parseCidr_text (arg t : List Char) (p : Nat) (hb : cidrBuf arg = .ok (t ++ '/' :: Nat.toDigits 10 p)) (ht : '/' ∉ t) (hp : p < 4294967296) (adr : List UInt8) (ha : CText.pton6 t = some adr) :
    parseCidr arg = .ok (if (if ':' ∈ arg then p else u32 (p + 96)) > 128 then none
      else some ⟨maskAdr adr (maskOf (if ':' ∈ arg then p else u32 (p + 96))), maskOf (if ':' ∈ arg then p else u32 (p + 96))⟩) := by
  have h1 : CText.strchr '/' (t ++ '/' :: Nat.toDigits 10 p) = some ('/' :: Nat.toDigits 10 p) := by
    unfold CText.strchr
    rw [List.dropWhile_append_of_pos (by intro c hc; simp only [bne_iff_ne, ne_eq]; rintro rfl; exact ht hc), List.dropWhile_cons_of_neg (by simp)]
  have h2 : (t ++ '/' :: Nat.toDigits 10 p).takeWhile (fun c => c != '/') = t := by
    rw [List.takeWhile_append_of_pos (by intro c hc; simp only [bne_iff_ne, ne_eq]; rintro rfl; exact ht hc), List.takeWhile_cons_of_neg (by simp), List.append_nil]
  have h3 : CText.scanU (Nat.toDigits 10 p) = some (p, []) := by
    have := scanU_digits p (by omega) [] (by simp)
    rwa [List.append_nil] at this
  unfold parseCidr
  rw [hb]
  simp only [Res.ok_bind, h1, List.drop_one, List.tail_cons, h3, h2, ha, Res.pure_eq, bitMask_eq]
  split <;> split <;> rfl

theorem dotted_chars {a : Addr4} {c : Char} (h : c ∈ dotted a) : c.isDigit = true ∨ c = '.' := by
  unfold dotted at h
  simp only [List.mem_append, List.mem_cons, List.not_mem_nil, or_false] at h
  have hd : ∀ n, c ∈ Nat.toDigits 10 n → c.isDigit = true := fun n hc => Nat.isDigit_of_mem_toDigits (by omega) (by omega) hc
  rcases h with (((((h | h) | h) | h) | h) | h) | h <;> first | exact .inr h | exact .inl (hd _ h)

theorem colons_chars (P : Char → Prop) (hc : P ':') : ∀ (gs : List (List Char)), (∀ g ∈ gs, ∀ c ∈ g, P c) → ∀ c ∈ colons gs, P c
  | [], _, c, h => by cases h
  | [g], hg, c, h => hg g (by simp) c h
  | g :: h :: gs, hg, c, hm => by
    rw [colons_cons _ _ (by simp)] at hm
    simp only [List.mem_append, List.mem_cons] at hm
    rcases hm with hm | rfl | hm
    · exact hg g (by simp) c hm
    · exact hc
    · exact colons_chars P hc (h :: gs) (fun g hg' => hg g (by simp only [List.mem_cons] at hg' ⊢; exact .inr hg')) c hm

theorem text_chars (a : Addr6) (h : a.WF) : ∀ c ∈ a.text, c ≠ '/' := by
  have hg : ∀ g, GroupWF g → ∀ c ∈ g, c ≠ '/' := by
    rintro g hg c hc rfl
    exact absurd (hg.2.2 '/' hc) (by decide)
  have hd : ∀ b, ∀ c ∈ dotted b, c ≠ '/' := by
    rintro b c hc rfl
    rcases dotted_chars hc with h | h
    · exact absurd h (by decide)
    · exact absurd h (by decide)
  have hgs : ∀ (gs : List (List Char)), (∀ g ∈ gs, GroupWF g) → ∀ c ∈ colons (gs ++ a.tail.toList.map dotted), c ≠ '/' := by
    intro gs h
    apply colons_chars (· ≠ '/') (by decide)
    intro g hm
    simp only [List.mem_append, List.mem_map] at hm
    rcases hm with hm | ⟨b, _, rfl⟩
    · exact hg g (h g hm)
    · exact hd b
  intro c hc
  unfold Addr6.text at hc
  split at hc
  · simp only [List.mem_append, List.mem_cons, List.not_mem_nil, or_false] at hc
    rcases hc with (hc | hc) | hc
    · exact colons_chars (· ≠ '/') (by decide) a.left (fun g hm => hg g (h.1 g (by simp [hm]))) c hc
    · rcases hc with rfl | rfl <;> decide
    · exact hgs _ (fun g hm => h.1 g (by simp [hm])) c hc
  · exact hgs _ (fun g hm => h.1 g (by simp [hm])) c hc

theorem dotted_len (a : Addr4) : (dotted a).length ≤ 15 := by
  unfold dotted
  have h1 := octet_len _ a.a.toNat_lt; have h2 := octet_len _ a.b.toNat_lt; have h3 := octet_len _ a.c.toNat_lt; have h4 := octet_len _ a.d.toNat_lt
  simp only [List.length_append, List.length_cons, List.length_nil]
  omega

theorem colons_len : ∀ (gs : List (List Char)), (colons gs).length ≤ (gs.map (fun g => g.length + 1)).sum
  | [] => by simp [colons]
  | [g] => by simp [colons]
  | g :: h :: gs => by
    have := colons_len (h :: gs)
    rw [colons_cons _ _ (by simp), List.map_cons, List.sum_cons]
    simp only [List.length_append, List.length_cons] at *
    omega

theorem sum_le (gs : List (List Char)) (n : Nat) (h : ∀ g ∈ gs, g.length ≤ n) : (gs.map (fun g => g.length + 1)).sum ≤ (n + 1) * gs.length := by
  induction gs with
  | nil => simp
  | cons g gs ih =>
    have h1 := h g (by simp); have h2 := ih (fun g hg => h g (by simp [hg]))
    simp only [List.map_cons, List.sum_cons, List.length_cons, Nat.mul_succ]
    omega

theorem text_len (a : Addr6) (h : a.WF) : a.text.length ≤ 100 := by
  have hgs : ∀ (gs : List (List Char)), (∀ g ∈ gs, GroupWF g) → (colons (gs ++ a.tail.toList.map dotted)).length ≤ 5 * gs.length + 16 := by
    intro gs hg
    have h1 := colons_len (gs ++ a.tail.toList.map dotted)
    have h2 := sum_le gs 4 (fun g hm => (hg g hm).2.1)
    have h3 : ((a.tail.toList.map dotted).map (fun g => g.length + 1)).sum ≤ 16 := by
      cases a.tail with
      | none => simp
      | some b => have := dotted_len b; simp; omega
    rw [List.map_append, List.sum_append] at h1
    omega
  have hl := h.2
  unfold Addr6.text
  split
  · rename_i hg
    rw [if_pos hg] at hl
    have h1 := colons_len a.left
    have h2 := sum_le a.left 4 (fun g hm => (h.1 g (by simp [hm])).2.1)
    have h3 := hgs a.right (fun g hm => h.1 g (by simp [hm]))
    simp only [List.length_append, List.length_cons, List.length_nil]
    omega
  · rename_i hg
    rw [if_neg hg] at hl
    have h3 := hgs a.left (fun g hm => h.1 g (by simp [hm]))
    omega

theorem text_colon (a : Addr6) (h : a.WF) : ':' ∈ a.text := by
  have hl := h.2
  unfold Addr6.text
  split
  · simp
  · rename_i hg
    rw [if_neg hg] at hl
    obtain ⟨g, g2, r, he⟩ : ∃ g g2 r, a.left ++ a.tail.toList.map dotted = g :: g2 :: r := by
      have : 2 ≤ a.left.length := by
        have : a.tail.toList.length ≤ 1 := by cases a.tail <;> simp
        omega
      cases hL : a.left with
      | nil => rw [hL] at this; exact absurd this (by decide)
      | cons g l =>
        cases l with
        | nil => rw [hL] at this; simp at this
        | cons g2 l => exact ⟨g, g2, _, rfl⟩
    rw [he, colons_cons _ _ (by simp)]
    simp

theorem digits_len (p : Nat) (hp : p < 4294967296) : (Nat.toDigits 10 p).length ≤ 10 :=
  (Nat.length_toDigits_le_iff (by omega) (by omega)).2 (by omega)

/-- The IPv4-mapped address in text. -/
def mappedText (a : Addr4) : Addr6 := ⟨[], true, ["ffff".toList], some a⟩

theorem mappedText_WF (a : Addr4) : (mappedText a).WF := by
  refine ⟨?_, ?_⟩
  · intro g hg
    simp only [mappedText, List.nil_append, List.mem_cons, List.not_mem_nil, or_false] at hg
    subst hg
    decide
  · simp [mappedText]

theorem mappedText_text (a : Addr4) : (mappedText a).text = "::ffff:".toList ++ dotted a := by
  simp [mappedText, Addr6.text, colons]

theorem mappedText_bytes (a : Addr4) : (mappedText a).bytes = a.mapped := by
  simp only [mappedText, Addr6.bytes, Option.toList_some, List.flatMap_cons, List.flatMap_nil, List.append_nil, List.nil_append, List.length_nil]
  rfl

/-- What becomes of an IPv4 network with any prefix length. -/
theorem parse_v4 (a : Addr4) (p : Nat) (hp : p < 4294967296) :
    parseCidr (Net.v4 a p).text = .ok (if u32 (p + 96) > 128 then none else some ⟨maskAdr a.mapped (maskOf (u32 (p + 96))), maskOf (u32 (p + 96))⟩) := by
  have hno : ':' ∉ (Net.v4 a p).text := by
    intro h
    simp only [Net.text, List.mem_append, List.mem_cons, List.not_mem_nil, or_false] at h
    rcases h with (h | h) | h
    · rcases dotted_chars h with h | h
      · exact absurd h (by decide)
      · exact absurd h (by decide)
    · exact absurd h (by decide)
    · exact absurd (Nat.isDigit_of_mem_toDigits (b := 10) (by omega) (by omega) h) (by decide)
  have hb : cidrBuf (Net.v4 a p).text = .ok ((mappedText a).text ++ '/' :: Nat.toDigits 10 p) := by
    unfold cidrBuf
    rw [if_neg hno, mappedText_text, List.take_of_length_le]
    · simp [Net.text]
    · have h1 := dotted_len a; have h2 := digits_len p hp
      simp only [Net.text, List.length_append, List.length_cons, List.length_nil]
      have : "::ffff:".toList.length = 7 := by decide
      omega
  have := parseCidr_text _ _ p hb (fun h => text_chars _ (mappedText_WF a) _ h rfl) hp _ (pton6_text _ (mappedText_WF a))
  rw [mappedText_bytes] at this
  rw [this]
  simp only [if_neg hno]

/-- What becomes of an IPv6 network with any prefix length. -/
theorem parse_v6 (a : Addr6) (h : a.WF) (p : Nat) (hp : p < 4294967296) :
    parseCidr (Net.v6 a p).text = .ok (if p > 128 then none else some ⟨maskAdr a.bytes (maskOf p), maskOf p⟩) := by
  have hc : ':' ∈ (Net.v6 a p).text := by
    simp only [Net.text, List.mem_append]
    exact .inl (.inl (text_colon a h))
  have hb : cidrBuf (Net.v6 a p).text = .ok (a.text ++ '/' :: Nat.toDigits 10 p) := by
    unfold cidrBuf
    rw [if_pos hc, if_neg]
    · simp [Net.text]
    · have h1 := text_len a h; have h2 := digits_len p hp
      simp only [Net.text, List.length_append, List.length_cons, List.length_nil]
      omega
  have := parseCidr_text _ _ p hb (fun hm => text_chars _ h _ hm rfl) hp _ (pton6_text _ h)
  rw [this]
  simp only [if_pos hc]

theorem mapped_prefix (a : Addr4) (p : Nat) (hp : p ≤ 32) (x : List UInt8) (hx : x.length = 16) :
    SamePrefix (p + 96) a.mapped x ↔ ∃ y : Addr4, x = y.mapped ∧ SamePrefix p a.bytes y.bytes := by
  have hsplit : ∀ (z : Addr4) (i : Nat), bit z.mapped (96 + i) = bit z.bytes i := by
    intro z i
    unfold bit
    rw [show (96 + i) / 8 = i / 8 + 12 by omega, show (96 + i) % 8 = i % 8 by omega]
    rfl
  constructor
  · intro h
    obtain ⟨y, hy⟩ : ∃ y : Addr4, x = x.take 12 ++ y.bytes := by
      have h4 : (x.drop 12).length = 4 := by rw [List.length_drop]; omega
      match hd : x.drop 12, h4 with
      | [a, b, c, d], _ => exact ⟨⟨a, b, c, d⟩, by
          have h5 := List.take_append_drop 12 x
          rw [hd] at h5
          exact h5.symm⟩
    have h12 : x.take 12 = a.mapped.take 12 := by
      apply ext_bits _ _ 12 (by rw [List.length_take]; omega) (by rfl)
      intro i hi
      have hb : ∀ (z : List UInt8), bit (z.take 12) i = bit z i := by
        intro z
        unfold bit
        rw [List.getD_eq_getElem?_getD, List.getD_eq_getElem?_getD, List.getElem?_take_of_lt (by omega)]
      rw [hb, hb]
      exact (h i (by omega)).symm
    have hxy : x = y.mapped := by rw [hy, h12]; rfl
    refine ⟨y, hxy, ?_⟩
    intro i hi
    rw [← hsplit, ← hsplit, ← hxy]
    exact h _ (by omega)
  · rintro ⟨y, rfl, h⟩ i hi
    by_cases h96 : i < 96
    · have hb : ∀ (z : Addr4), bit z.mapped i = bit [0, 0, 0, 0, 0, 0, 0, 0, 0, 0, 255, 255] i := by
        intro z
        unfold bit
        rw [List.getD_eq_getElem?_getD, List.getD_eq_getElem?_getD, show z.mapped = [0, 0, 0, 0, 0, 0, 0, 0, 0, 0, 255, 255] ++ z.bytes from rfl,
          List.getElem?_append_left (by simp only [List.length_cons, List.length_nil]; omega)]
      rw [hb, hb]
    · obtain ⟨j, rfl⟩ : ∃ j, i = 96 + j := ⟨i - 96, by omega⟩
      rw [hsplit, hsplit]
      exact h j (by omega)

/-- A network as documented is accepted and contains the right addresses. -/
theorem parse_net (n : Net) (h : n.WF) : ∃ c, parseCidr n.text = .ok (some c) ∧ ∀ x : List UInt8, x.length = 16 → (addrInCidr c x = true ↔ n.Contains x) := by
  cases n with
  | v4 a p =>
    have hp : p ≤ 32 := h
    have hu : u32 (p + 96) = p + 96 := by unfold u32; omega
    refine ⟨_, by rw [parse_v4 a p (by omega), hu, if_neg (by omega)], ?_⟩
    intro x hx
    rw [inCidr_iff _ _ _ (by omega) rfl hx, mapped_prefix a p hp x hx]
    rfl
  | v6 a p =>
    obtain ⟨hw, hp⟩ := h
    refine ⟨_, by rw [parse_v6 a hw p (by omega), if_neg (by omega)], ?_⟩
    intro x hx
    exact inCidr_iff _ _ _ hp (Addr6_bytes_length a hw) hx

theorem cidrLoop_nets : ∀ (l : List Net), (∀ n ∈ l, n.WF) → ∃ cs, cidrLoop (l.map Net.text) = .ok (some cs) ∧
    ∀ x : List UInt8, x.length = 16 → (cs.any (fun c => addrInCidr c x) = true ↔ ∃ n ∈ l, n.Contains x)
  | [], _ => ⟨[], rfl, by simp⟩
  | n :: l, h => by
    obtain ⟨c, h1, h2⟩ := parse_net n (h n (by simp))
    obtain ⟨cs, h3, h4⟩ := cidrLoop_nets l (fun n hn => h n (by simp [hn]))
    refine ⟨c :: cs, ?_, ?_⟩
    · simp only [List.map_cons, cidrLoop, h1, h3, Res.ok_bind, Res.pure_eq]
    · intro x hx
      rw [List.any_cons, Bool.or_eq_true, h2 x hx, h4 x hx]
      simp

theorem parseCidrs_nets (l : List Net) (h : NetsWF l) : ∃ cs, parseCidrs (l.map Net.text) = .ok (some cs) ∧
    ∀ x : List UInt8, x.length = 16 → (cs.any (fun c => addrInCidr c x) = true ↔ ∃ n ∈ l, n.Contains x) := by
  obtain ⟨h1, h2, h3⟩ := h
  obtain ⟨cs, h4, h5⟩ := cidrLoop_nets l h3
  refine ⟨cs, ?_, h5⟩
  unfold parseCidrs
  rw [List.length_map, if_neg (by omega), if_neg (by omega), h4]

/-- Nothing undefined for texts of fewer than 128 characters. -/
theorem parseCidr_cases (arg : List Char) : (∃ r, parseCidr arg = .ok r) ∨ (¬ (':' ∈ arg → arg.length < 128) ∧ parseCidr arg = .ub) := by
  have hb : (∃ s, cidrBuf arg = .ok s) ∨ (¬ (':' ∈ arg → arg.length < 128) ∧ cidrBuf arg = .ub) := by
    unfold cidrBuf
    split
    · rename_i hc
      split
      · exact .inr ⟨fun h => absurd (h hc) (by omega), rfl⟩
      · exact .inl ⟨_, rfl⟩
    · exact .inl ⟨_, rfl⟩
  rcases hb with ⟨s, hs⟩ | ⟨hn, hs⟩
  · left
    unfold parseCidr
    rw [hs]
    simp only [Res.ok_bind, Res.pure_eq, bitMask_eq]
    split
    · exact ⟨_, rfl⟩
    · split
      · exact ⟨_, rfl⟩
      · generalize (if ':' ∈ arg then _ else _ : Nat) = m
        split
        · exact ⟨_, rfl⟩
        · split <;> exact ⟨_, rfl⟩
  · refine .inr ⟨hn, ?_⟩
    unfold parseCidr
    rw [hs]
    rfl

theorem cidrLoop_cases : ∀ (l : List (List Char)), (∃ r, cidrLoop l = .ok r) ∨ (¬ (∀ s ∈ l, ':' ∈ s → s.length < 128) ∧ cidrLoop l = .ub)
  | [] => .inl ⟨_, rfl⟩
  | s :: l => by
    rcases parseCidr_cases s with ⟨r, hr⟩ | ⟨hn, hr⟩
    · cases r with
      | none => exact .inl ⟨none, by simp only [cidrLoop, hr, Res.ok_bind, Res.pure_eq]⟩
      | some c =>
        rcases cidrLoop_cases l with ⟨q, hq⟩ | ⟨hn, hq⟩
        · left
          simp only [cidrLoop, hr, hq, Res.ok_bind, Res.pure_eq]
          cases q <;> exact ⟨_, rfl⟩
        · refine .inr ⟨fun h => hn (fun s hs => h s (by simp [hs])), ?_⟩
          simp only [cidrLoop, hr, hq, Res.ok_bind, Res.ub_bind]
    · refine .inr ⟨fun h => hn (h s (by simp)), ?_⟩
      simp only [cidrLoop, hr, Res.ub_bind]

theorem parseCidrs_cases (l : List (List Char)) : (∃ r, parseCidrs l = .ok r) ∨ (¬ (∀ s ∈ l, ':' ∈ s → s.length < 128) ∧ parseCidrs l = .ub) := by
  unfold parseCidrs
  split
  · exact .inl ⟨_, rfl⟩
  · split
    · exact .inl ⟨_, rfl⟩
    · exact cidrLoop_cases l

end Nfqlb.Flow
