import Mathlib.Tactic.Common
import Verif.Proof.PacketSafe
import Verif.Spec.PacketExact

set_option autoImplicit false

namespace Nfqlb

open Spec

theorem rd_out {d : Packet} {i : Nat} (h : d.length ≤ i) : rd d i = .ub := by
  unfold rd; rw [List.getElem?_eq_none h]

theorem rd_eq {d : Packet} {i : Nat} {b : UInt8} (h : d[i]? = some b) : rd d i = .ok b := by
  unfold rd; rw [h]

theorem rd16_out {d : Packet} {i : Nat} (h : d.length < i + 2) : rd16 d i = .ub := by
  unfold rd16
  by_cases h1 : d.length ≤ i
  · rw [rd_out h1]; rfl
  · obtain ⟨b, hb⟩ := rd_ok (d := d) (i := i) (by omega)
    rw [hb, rd_out (by omega)]; rfl

theorem lt_of_get {d : Packet} {i : Nat} {b : UInt8} (h : d[i]? = some b) : i < d.length := by
  by_contra hc
  rw [List.getElem?_eq_none (by omega)] at h
  cases h

/-! ### IPv4 -/

theorem v4_exact (ue : Nat) (d : Packet) :
    (Cut4 d ∧ getHashKeyIpv4 ue d = .ub) ∨ (¬ Cut4 d ∧ ∃ p, getHashKeyIpv4 ue d = .ok p) := by
  unfold getHashKeyIpv4
  by_cases hb : 20 < d.length
  swap
  · right
    refine ⟨fun h => hb h.1, ?_⟩
    rw [if_pos (not_inBounds_iff.2 (by omega))]
    exact ⟨_, rfl⟩
  rw [if_neg (by rw [not_inBounds_iff]; omega)]
  obtain ⟨b0, h0⟩ := rd_ok (d := d) (i := 0) (by omega)
  obtain ⟨f, hf⟩ := rd16_ok (d := d) (i := 6) (by omega)
  obtain ⟨f0, hf0⟩ := rd_ok (d := d) (i := 6) (by omega)
  obtain ⟨f1, hf1⟩ := rd_ok (d := d) (i := 7) (by omega)
  have hff : f = (f0, f1) := by
    unfold rd16 at hf
    rw [hf0, show (6 : Nat) + 1 = 7 from rfl, hf1] at hf
    simpa using hf.symm
  subst hff
  obtain ⟨i, hi⟩ := rd16_ok (d := d) (i := 4) (by omega)
  obtain ⟨s, hs⟩ := rdN_ok (d := d) (i := 12) (n := 4) (by omega)
  obtain ⟨t, ht⟩ := rdN_ok (d := d) (i := 16) (n := 4) (by omega)
  obtain ⟨p, hp⟩ := rd_ok (d := d) (i := 9) (by omega)
  simp only [h0, hf, hi, hs, ht, hp, Res.ok_bind]
  have g0 := rd_some h0
  have g6 := rd_some hf0
  have g7 := rd_some hf1
  have g9 := rd_some hp
  by_cases hl : b0.toNat % 16 < 5
  · rw [if_pos hl]
    right
    refine ⟨?_, _, rfl⟩
    rintro ⟨_, b, _, _, e, h5, _⟩
    rw [g0] at e; cases e; omega
  rw [if_neg hl]
  by_cases hfr : ntohs (f0, f1) % 8192 = 0
  swap
  · have hx : ntohs (f0, f1) % 16384 ≠ 0 := by omega
    right
    refine ⟨?_, ?_⟩
    · rintro ⟨_, b, a0, a1, _, _, e6, e7, h, _⟩
      rw [g6] at e6; rw [g7] at e7; cases e6; cases e7
      exact hfr h
    · rw [if_pos (by simp [hx, hfr])]
      exact ⟨_, rfl⟩
  rw [if_neg (by simp [hfr])]
  by_cases h1 : p = 1
  swap
  · right
    refine ⟨?_, ?_⟩
    · rintro ⟨_, b, a0, a1, _, _, _, _, _, e9, _⟩
      rw [g9] at e9; cases e9; exact h1 rfl
    · rw [if_neg h1]
      split
      · exact ⟨_, rfl⟩
      · exact portsPart_ok ..
  subst h1
  rw [if_pos rfl]
  have hcut : Cut4 d ↔ IcmpCut 8 d (4 * (b0.toNat % 16)) := by
    constructor
    · rintro ⟨_, b, a0, a1, e, _, _, _, _, _, h⟩
      rw [g0] at e; cases e; exact h
    · intro h
      exact ⟨hb, b0, f0, f1, g0, by omega, g6, g7, hfr, g9, h⟩
  rw [hcut]
  by_cases ho : d.length ≤ 4 * (b0.toNat % 16)
  · left
    refine ⟨Or.inl ho, ?_⟩
    rw [rd_out ho]; rfl
  obtain ⟨a, ha⟩ := rd_ok (d := d) (i := 4 * (b0.toNat % 16)) (by omega)
  have ga := rd_some ha
  rw [ha]
  simp only [Res.ok_bind]
  by_cases h8 : a = 8
  · subst h8
    rw [if_neg (by decide), if_pos rfl]
    by_cases hs : d.length < 4 * (b0.toNat % 16) + 6
    · left
      refine ⟨Or.inr ⟨ga, hs⟩, ?_⟩
      rw [rd16_out (by omega)]; rfl
    · right
      obtain ⟨c, hc⟩ := rd16_ok (d := d) (i := 4 * (b0.toNat % 16) + 4) (by omega)
      refine ⟨?_, ?_⟩
      · rintro (h | h)
        · exact ho h
        · exact hs h.2
      · rw [hc]; exact ⟨_, rfl⟩
  · right
    refine ⟨?_, ?_⟩
    · rintro (h | h)
      · exact ho h
      · rw [ga] at h; exact h8 (Option.some.inj h.1)
    · rw [if_neg h8]
      split
      · split
        · exact ⟨_, rfl⟩
        · exact innerV4_ok ..
      · exact ⟨_, rfl⟩

/-! ### IPv6 -/

theorem upper_exact (ue : Nat) (d : Packet) (sa da : List UInt8) (frag : Bool) (f : Option (Raw16 × Raw16)) (t : UInt8) (hdr : Nat) :
    ((t = 58 ∧ IcmpCut 128 d hdr) ∧ ipv6Upper ue d sa da frag f t hdr = .ub) ∨
    (¬ (t = 58 ∧ IcmpCut 128 d hdr) ∧ ∃ p, ipv6Upper ue d sa da frag f t hdr = .ok p) := by
  unfold ipv6Upper
  dsimp only
  by_cases ht : t = 58
  swap
  · right
    refine ⟨fun h => ht h.1, ?_⟩
    rw [if_neg ht]
    split
    · exact ⟨_, rfl⟩
    · exact portsPart_ok ..
  rw [if_pos ht]
  by_cases ho : d.length ≤ hdr
  · left
    refine ⟨⟨ht, Or.inl ho⟩, ?_⟩
    rw [rd_out ho]; rfl
  obtain ⟨a, ha⟩ := rd_ok (d := d) (i := hdr) (by omega)
  have ga := rd_some ha
  rw [ha]
  simp only [Res.ok_bind]
  by_cases h8 : a = 128
  · subst h8
    rw [if_neg (by decide), if_pos rfl]
    by_cases hs : d.length < hdr + 6
    · left
      refine ⟨⟨ht, Or.inr ⟨ga, hs⟩⟩, ?_⟩
      rw [rd16_out (by omega)]; rfl
    · right
      obtain ⟨c, hc⟩ := rd16_ok (d := d) (i := hdr + 4) (by omega)
      refine ⟨?_, ?_⟩
      · rintro ⟨_, h | h⟩
        · exact ho h
        · exact hs h.2
      · rw [hc]; exact ⟨_, rfl⟩
  · right
    refine ⟨?_, ?_⟩
    · rintro ⟨_, h | h⟩
      · exact ho h
      · rw [ga] at h; exact h8 (Option.some.inj h.1)
    · rw [if_neg h8]
      split
      · split
        · exact ⟨_, rfl⟩
        · exact innerV6_ok ..
      · exact ⟨_, rfl⟩

/-- A chain is what the checked loop finds. -/
theorem chain_walk {d : Packet} {t t' : UInt8} {pos pos' : Nat} (h : ChainEnd d t pos t' pos') :
    ∃ k, ∀ f, k ≤ f → walkExt true d f t pos = .ok (some (t', pos')) := by
  induction h with
  | upper hn =>
    refine ⟨1, fun f hf => ?_⟩
    obtain ⟨f, rfl⟩ : ∃ g, f = g + 1 := ⟨f - 1, by omega⟩
    unfold walkExt
    rw [if_pos]
    rw [← isExt_iff] at hn
    simpa using hn
  | frag =>
    refine ⟨1, fun f hf => ?_⟩
    obtain ⟨f, rfl⟩ : ∃ g, f = g + 1 := ⟨f - 1, by omega⟩
    unfold walkExt
    rw [if_neg (by decide), if_pos (by decide)]
  | step hx h44 hb hn hl hl0 _ ih =>
    obtain ⟨k, hk⟩ := ih
    refine ⟨k + 1, fun f hf => ?_⟩
    obtain ⟨f, rfl⟩ : ∃ g, f = g + 1 := ⟨f - 1, by omega⟩
    unfold walkExt
    rw [← isExt_iff] at hx
    rw [if_neg (by simp [hx]), if_neg (by simp [h44]), if_neg (by rw [not_inBounds_iff]; omega), rd_eq hn, rd_eq hl]
    simp only [Res.ok_bind]
    rw [if_neg hl0]
    exact hk f (by omega)

theorem chain_iff (d : Packet) (nxt t : UInt8) (pos : Nat) :
    walkExt true d (turns d) nxt 40 = .ok (some (t, pos)) ↔ ChainEnd d nxt 40 t pos := by
  constructor
  · exact walkExt_chain d _ _ _ _ _
  · intro h
    obtain ⟨k, hk⟩ := chain_walk h
    have := hk (k + turns d) (by omega)
    rw [walkExt_fuel true d (turns d) (k + turns d) nxt 40 (by unfold turns; omega) (by unfold turns; omega) (by unfold turns; omega)
      (by unfold turns; omega)]
    exact this

/-- The headers of a first fragment lead to something that is no extension header. -/
def Ends (d : Packet) (t : UInt8) (pos : Nat) (t' : UInt8) (pos' : Nat) : Prop := Follow d t pos t' pos' ∧ ¬ IsExt t'

theorem walkFrag_step {d : Packet} {t n l : UInt8} {pos : Nat} (f : Nat) (hx : IsExt t) (h0 : d[pos]? = some n) (h1 : d[pos + 1]? = some l) :
    walkFrag d (f + 1) t pos = walkFrag d f n (pos + l.toNat * 8) := by
  conv => lhs; unfold walkFrag
  rw [← isExt_iff] at hx
  rw [if_neg (by simp [hx]), rd_eq h0, rd_eq h1]
  rfl

theorem follow_walk {d : Packet} {t t' : UInt8} {pos pos' : Nat} (h : Follow d t pos t' pos') :
    ∃ k, ∀ f, walkFrag d (f + k) t pos = walkFrag d f t' pos' := by
  induction h with
  | here => exact ⟨0, fun _ => rfl⟩
  | step hx h0 h1 _ ih =>
    obtain ⟨k, hk⟩ := ih
    refine ⟨k + 1, fun f => ?_⟩
    rw [← Nat.add_assoc, walkFrag_step _ hx h0 h1]
    exact hk f

theorem ends_walk {d : Packet} {t t' : UInt8} {pos pos' : Nat} (h : Ends d t pos t' pos') :
    ∃ k, ∀ f, k ≤ f → walkFrag d f t pos = .ok (t', pos') := by
  obtain ⟨k, hk⟩ := follow_walk h.1
  refine ⟨k + 1, fun f hf => ?_⟩
  obtain ⟨g, rfl⟩ : ∃ g, f = (g + 1) + k := ⟨f - k - 1, by omega⟩
  rw [hk]
  unfold walkFrag
  have := h.2
  rw [← isExt_iff] at this
  rw [if_pos (by simpa using this)]

theorem leaves_walk {d : Packet} {t t' : UInt8} {pos pos' : Nat} (h : Follow d t pos t' pos') (hx : IsExt t') (hl : d.length < pos' + 2) :
    ∃ k, ∀ f, k ≤ f → walkFrag d f t pos = .ub := by
  obtain ⟨k, hk⟩ := follow_walk h
  refine ⟨k + 1, fun f hf => ?_⟩
  obtain ⟨g, rfl⟩ : ∃ g, f = (g + 1) + k := ⟨f - k - 1, by omega⟩
  rw [hk]
  unfold walkFrag
  rw [← isExt_iff] at hx
  rw [if_neg (by simp [hx])]
  by_cases h1 : d.length ≤ pos'
  · rw [rd_out h1]; rfl
  · obtain ⟨b, hb⟩ := rd_ok (d := d) (i := pos') (by omega)
    rw [hb, rd_out (by omega)]; rfl

theorem walkFrag_less {d : Packet} : ∀ (k f : Nat) (t : UInt8) (pos : Nat), walkFrag d (f + k) t pos = .hang → walkFrag d f t pos = .hang := by
  intro k f
  induction f with
  | zero => intro t pos _; rfl
  | succ f ih =>
    intro t pos h
    rw [show f + 1 + k = (f + k) + 1 by omega] at h
    unfold walkFrag at h ⊢
    split at h
    · cases h
    · rename_i hx
      rw [if_neg hx]
      cases h0 : rd d pos with
      | ok n =>
        cases h1 : rd d (pos + 1) with
        | ok l =>
          rw [h0, h1] at h
          simp only [Res.ok_bind] at h ⊢
          exact ih _ _ h
        | ub => rw [h0, h1] at h; cases h
        | die => rw [h0, h1] at h; cases h
        | hang => rfl
      | ub => rw [h0] at h; cases h
      | die => rw [h0] at h; cases h
      | hang => rfl

theorem circles_walk {d : Packet} {t t' n : UInt8} {pos pos' : Nat} (h : Follow d t pos t' pos') (hx : IsExt t') (h0 : d[pos']? = some n)
    (hn : IsExt n) (h1 : d[pos' + 1]? = some 0) (f : Nat) : walkFrag d f t pos = .hang := by
  obtain ⟨k, hk⟩ := follow_walk h
  have := hk f
  rw [walkFrag_hang d pos' n h0 h1 hn f t' hx] at this
  exact walkFrag_less k f t pos this

theorem walkFrag_three (d : Packet) : ∀ (m : Nat) (f : Nat) (t : UInt8) (pos : Nat), d.length - pos ≤ m → d.length - pos + 2 ≤ f →
    (∃ t' pos', Ends d t pos t' pos' ∧ walkFrag d f t pos = .ok (t', pos')) ∨
    (walkFrag d f t pos = .ub ∧ ∃ t' pos', Follow d t pos t' pos' ∧ IsExt t' ∧ d.length < pos' + 2) ∨
    (walkFrag d f t pos = .hang ∧ ∃ t' pos' n, Follow d t pos t' pos' ∧ IsExt t' ∧ d[pos']? = some n ∧ IsExt n ∧ d[pos' + 1]? = some 0) := by
  intro m
  induction m with
  | zero =>
    intro f t pos hm hf
    obtain ⟨f, rfl⟩ : ∃ g, f = g + 1 := ⟨f - 1, by omega⟩
    by_cases hx : IsExt t
    · right; left
      refine ⟨?_, t, pos, .here, hx, by omega⟩
      unfold walkFrag
      rw [← isExt_iff] at hx
      rw [if_neg (by simp [hx]), rd_out (by omega)]; rfl
    · left
      refine ⟨t, pos, ⟨.here, hx⟩, ?_⟩
      unfold walkFrag
      rw [← isExt_iff] at hx
      rw [if_pos (by simpa using hx)]
  | succ m ih =>
    intro f t pos hm hf
    obtain ⟨f, rfl⟩ : ∃ g, f = g + 1 := ⟨f - 1, by omega⟩
    by_cases hx : IsExt t
    swap
    · left
      refine ⟨t, pos, ⟨.here, hx⟩, ?_⟩
      unfold walkFrag
      rw [← isExt_iff] at hx
      rw [if_pos (by simpa using hx)]
    by_cases hlen : d.length < pos + 2
    · right; left
      refine ⟨?_, t, pos, .here, hx, hlen⟩
      unfold walkFrag
      rw [← isExt_iff] at hx
      rw [if_neg (by simp [hx])]
      by_cases h1 : d.length ≤ pos
      · rw [rd_out h1]; rfl
      · obtain ⟨b, hb⟩ := rd_ok (d := d) (i := pos) (by omega)
        rw [hb, rd_out (by omega)]; rfl
    have h0 : d[pos]? = some (d[pos]'(by omega)) := List.getElem?_eq_getElem _
    have h1 : d[pos + 1]? = some (d[pos + 1]'(by omega)) := List.getElem?_eq_getElem _
    generalize d[pos]'(by omega) = n at h0
    generalize d[pos + 1]'(by omega) = l at h1
    by_cases hl : l = 0
    · subst hl
      by_cases hn : IsExt n
      · right; right
        exact ⟨walkFrag_hang d pos n h0 h1 hn _ t hx, t, pos, n, .here, hx, h0, hn, h1⟩
      · left
        refine ⟨n, pos, ⟨.step hx h0 h1 .here, hn⟩, ?_⟩
        rw [walkFrag_step _ hx h0 h1]
        obtain ⟨f, rfl⟩ : ∃ g, f = g + 1 := ⟨f - 1, by omega⟩
        unfold walkFrag
        rw [← isExt_iff] at hn
        rw [if_pos (by simpa using hn)]
        rfl
    · have hp : 0 < l.toNat := by
        rcases Nat.eq_zero_or_pos l.toNat with e | e
        · exact absurd (UInt8.toNat_inj.1 (by simpa using e)) hl
        · exact e
      rw [walkFrag_step _ hx h0 h1]
      rcases ih f n (pos + l.toNat * 8) (by omega) (by omega) with ⟨t', p', hE, e⟩ | ⟨e, t', p', hF, h⟩ | ⟨e, t', p', n', hF, h⟩
      · exact Or.inl ⟨t', p', ⟨.step hx h0 h1 hE.1, hE.2⟩, e⟩
      · exact Or.inr (Or.inl ⟨e, t', p', .step hx h0 h1 hF, h⟩)
      · exact Or.inr (Or.inr ⟨e, t', p', n', .step hx h0 h1 hF, h⟩)

theorem v6_exact (ue : Nat) (d : Packet) :
    (Cut6 d ∧ ¬ Circle6 d ∧ getHashKeyIpv6 ue d = .ub) ∨ (¬ Cut6 d ∧ Circle6 d ∧ getHashKeyIpv6 ue d = .hang) ∨
    (¬ Cut6 d ∧ ¬ Circle6 d ∧ ∃ p, getHashKeyIpv6 ue d = .ok p) := by
  unfold getHashKeyIpv6
  by_cases hb : 40 < d.length
  swap
  · right; right
    refine ⟨fun h => ?_, fun h => ?_, ?_⟩
    · obtain ⟨_, _, h, _⟩ := h; exact hb h.1
    · obtain ⟨_, h, _⟩ := h; exact hb h.1
    · rw [if_pos (not_inBounds_iff.2 (by omega))]
      exact ⟨_, rfl⟩
  rw [if_neg (by rw [not_inBounds_iff]; omega)]
  obtain ⟨nxt, hn⟩ := rd_ok (d := d) (i := 6) (by omega)
  obtain ⟨s, hs⟩ := rdN_ok (d := d) (i := 8) (n := 16) (by omega)
  obtain ⟨da, ht⟩ := rdN_ok (d := d) (i := 24) (n := 16) (by omega)
  obtain ⟨w, hw⟩ := walkExt_turns_ok true d nxt 40
  have gn := rd_some hn
  have lead : ∀ t pos, Leads6 d t pos ↔ w = some (t, pos) := by
    intro t pos
    constructor
    · rintro ⟨_, n, e, h⟩
      rw [gn] at e; cases e
      have := (chain_iff d nxt t pos).2 h
      rw [hw] at this
      exact Res.ok.inj this
    · rintro rfl
      exact ⟨hb, nxt, gn, (chain_iff d nxt t pos).1 hw⟩
  simp only [hn, hs, ht, hw, Res.ok_bind]
  cases w with
  | none =>
    right; right
    refine ⟨fun h => ?_, fun h => ?_, _, rfl⟩
    · obtain ⟨_, _, h, _⟩ := h; cases (lead _ _).1 h
    · obtain ⟨_, h, _⟩ := h; cases (lead _ _).1 h
  | some w =>
    obtain ⟨t, pos⟩ := w
    dsimp only
    have hL : Leads6 d t pos := (lead _ _).2 rfl
    have hU : ∀ t' pos', Leads6 d t' pos' → t' = t ∧ pos' = pos := by
      intro t' pos' h
      have := (lead _ _).1 h
      simp only [Option.some.injEq, Prod.mk.injEq] at this
      exact ⟨this.1.symm, this.2.symm⟩
    by_cases h44 : t = 44
    swap
    · rw [if_neg h44]
      have hnc : ¬ Circle6 d := by
        rintro ⟨_, h, _⟩
        exact h44 (hU _ _ h).1.symm
      have hc : Cut6 d ↔ (t = 58 ∧ IcmpCut 128 d pos) := by
        constructor
        · rintro ⟨t', pos', h, hh⟩
          obtain ⟨rfl, rfl⟩ := hU _ _ h
          rcases hh with hh | hh | hh | hh
          · exact hh
          · exact absurd hh.1 h44
          · exact absurd hh.1 h44
          · exact absurd hh.1 h44
        · intro h
          exact ⟨t, pos, hL, Or.inl h⟩
      rcases upper_exact ue d s da false none t pos with ⟨h, e⟩ | ⟨h, e⟩
      · exact Or.inl ⟨hc.2 h, hnc, e⟩
      · exact Or.inr (Or.inr ⟨fun x => h (hc.1 x), hnc, e⟩)
    subst h44
    rw [if_pos rfl]
    by_cases hcut : d.length < pos + 8
    · left
      refine ⟨⟨44, pos, hL, Or.inr (Or.inl ⟨rfl, hcut⟩)⟩, ?_, ?_⟩
      · rintro ⟨p, h, hf, _⟩
        obtain ⟨_, rfl⟩ := hU _ _ h
        have := hf.1
        omega
      · by_cases h2 : d.length < pos + 4
        · rw [rd16_out (by omega)]; rfl
        · obtain ⟨a, ha⟩ := rd16_ok (d := d) (i := pos + 2) (by omega)
          rw [ha]
          by_cases h4 : d.length < pos + 6
          · rw [rd16_out (i := pos + 4) (by omega)]; rfl
          · obtain ⟨b, hb⟩ := rd16_ok (d := d) (i := pos + 4) (by omega)
            rw [hb, rd16_out (i := pos + 6) (by omega)]; rfl
    have h2' : d[pos + 2]? = some (d[pos + 2]'(by omega)) := List.getElem?_eq_getElem _
    have h3' : d[pos + 3]? = some (d[pos + 3]'(by omega)) := List.getElem?_eq_getElem _
    generalize d[pos + 2]'(by omega) = o0 at h2'
    generalize d[pos + 3]'(by omega) = o1 at h3'
    have h23 : rd16 d (pos + 2) = .ok (o0, o1) := by
      unfold rd16; rw [rd_eq h2', rd_eq h3']; rfl
    obtain ⟨i0, hi0⟩ := rd16_ok (d := d) (i := pos + 4) (by omega)
    obtain ⟨i1, hi1⟩ := rd16_ok (d := d) (i := pos + 6) (by omega)
    simp only [h23, hi0, hi1, Res.ok_bind]
    have hfirst : First6 d pos ↔ ntohs (o0, o1) / 8 = 0 := by
      constructor
      · rintro ⟨_, a, b, e2, e3, h⟩
        rw [h2'] at e2; rw [h3'] at e3; cases e2; cases e3
        exact h
      · intro h
        exact ⟨by omega, o0, o1, h2', h3', h⟩
    have hC : Cut6 d ↔ First6 d pos ∧ (Leaves d pos ∨ ∃ pos', Follow d 44 pos 58 pos' ∧ IcmpCut 128 d pos') := by
      constructor
      · rintro ⟨t', pos', h, hh⟩
        obtain ⟨rfl, rfl⟩ := hU _ _ h
        rcases hh with hh | hh | hh | hh
        · exact absurd hh.1 (by decide)
        · exact absurd hh.2 hcut
        · exact ⟨hh.2.1, Or.inl hh.2.2⟩
        · exact ⟨hh.2.1, Or.inr hh.2.2⟩
      · rintro ⟨hf, h | h⟩
        · exact ⟨44, pos, hL, Or.inr (Or.inr (Or.inl ⟨rfl, hf, h⟩))⟩
        · exact ⟨44, pos, hL, Or.inr (Or.inr (Or.inr ⟨rfl, hf, h⟩))⟩
    have hR : Circle6 d ↔ First6 d pos ∧ Circles d pos := by
      constructor
      · rintro ⟨p, h, hh⟩
        obtain ⟨_, rfl⟩ := hU _ _ h
        exact hh
      · intro h
        exact ⟨pos, hL, h⟩
    by_cases hoff : ntohs (o0, o1) / 8 = 0
    swap
    · rw [if_neg hoff]
      have : ¬ First6 d pos := fun h => hoff (hfirst.1 h)
      exact Or.inr (Or.inr ⟨fun h => this (hC.1 h).1, fun h => this (hR.1 h).1, _, rfl⟩)
    rw [if_pos hoff]
    have hF := hfirst.2 hoff
    rcases walkFrag_three d _ (turns d) 44 pos (Nat.le_refl _) (by unfold turns; omega) with ⟨t', p', hE, e⟩ | ⟨e, hl⟩ | ⟨e, hl⟩
    · obtain ⟨k, hk⟩ := ends_walk hE
      have nc : ¬ Circles d pos := by
        rintro ⟨a, b, n, h1, h2, h3, h4, h5⟩
        have := circles_walk h1 h2 h3 h4 h5 k
        rw [hk k (Nat.le_refl _)] at this
        cases this
      have nl : ¬ Leaves d pos := by
        rintro ⟨a, b, h1, h2, h3⟩
        obtain ⟨k', hk'⟩ := leaves_walk h1 h2 h3
        have := hk' (k + k') (by omega)
        rw [hk _ (by omega)] at this
        cases this
      rw [e]
      simp only [Res.ok_bind]
      have hnc : ¬ Circle6 d := fun h => nc (hR.1 h).2
      have hc : Cut6 d ↔ (t' = 58 ∧ IcmpCut 128 d p') := by
        rw [hC]
        constructor
        · rintro ⟨_, h | ⟨p2, h1, h2⟩⟩
          · exact absurd h nl
          · have hE2 : Ends d 44 pos 58 p2 := ⟨h1, by unfold IsExt; decide⟩
            obtain ⟨k', hk'⟩ := ends_walk hE2
            have := hk' (k + k') (by omega)
            rw [hk _ (by omega)] at this
            simp only [Res.ok.injEq, Prod.mk.injEq] at this
            rw [this.2]
            exact ⟨this.1, h2⟩
        · rintro ⟨rfl, h⟩
          exact ⟨hF, Or.inr ⟨p', hE.1, h⟩⟩
      rcases upper_exact ue d s da true (some (i0, i1)) t' p' with ⟨h, e⟩ | ⟨h, e⟩
      · exact Or.inl ⟨hc.2 h, hnc, e⟩
      · exact Or.inr (Or.inr ⟨fun x => h (hc.1 x), hnc, e⟩)
    · left
      refine ⟨hC.2 ⟨hF, Or.inl hl⟩, ?_, ?_⟩
      · intro h
        obtain ⟨a, b, n, h1, h2, h3, h4, h5⟩ := (hR.1 h).2
        have := circles_walk h1 h2 h3 h4 h5 (turns d)
        rw [e] at this
        cases this
      · rw [e]; rfl
    · right; left
      have hc : Circles d pos := hl
      refine ⟨?_, hR.2 ⟨hF, hc⟩, ?_⟩
      · intro h
        obtain ⟨a, b, n, h1, h2, h3, h4, h5⟩ := hc
        rcases (hC.1 h).2 with ⟨x, y, g1, g2, g3⟩ | ⟨p2, g1, g2⟩
        · obtain ⟨k, hk⟩ := leaves_walk g1 g2 g3
          have := circles_walk h1 h2 h3 h4 h5 k
          rw [hk k (Nat.le_refl _)] at this
          cases this
        · have hE2 : Ends d 44 pos 58 p2 := ⟨g1, by unfold IsExt; decide⟩
          obtain ⟨k, hk⟩ := ends_walk hE2
          have := circles_walk h1 h2 h3 h4 h5 k
          rw [hk k (Nat.le_refl _)] at this
          cases this
      · rw [e]; rfl

end Nfqlb
