import Verif.Model.Lb
import Verif.Proof.MaglevSet
import Verif.Proof.PacketIcmp

set_option autoImplicit false

namespace Nfqlb

open Spec Maglev

theorem mem_activeMarks_nonneg {l : List Int} {fw : Int} (h : fw ∈ activeMarks l) : 0 ≤ fw := by
  unfold activeMarks at h; simp at h; exact h.2

theorem activeMarks_nonempty {l : List Int} {fw : Int} (h : fw ∈ activeMarks l) : ∃ i, ActiveAt l i := by
  unfold activeMarks at h
  simp only [List.mem_toFinset, List.mem_filter, decide_eq_true_eq] at h
  obtain ⟨i, hi, he⟩ := List.getElem_of_mem h.1
  exact ⟨i, fw, by rw [List.getElem?_eq_getElem hi, he], h.2⟩

/-- The target in terms of the active set. -/
theorem target_cases {d : Mag} (hd : MagInv d) (hash : Nat) :
    ∃ fw, target d hash = .ok fw ∧
      ((activeMarks d.active ≠ ∅ ∧ fw ∈ activeMarks d.active ∧ 0 ≤ fw) ∨ (activeMarks d.active = ∅ ∧ fw = -1)) := by
  obtain ⟨fw, h1, h2, h3⟩ := hd.target_ok hash
  refine ⟨fw, h1, ?_⟩
  by_cases ha : ∃ i, ActiveAt d.active i
  · left
    have := h2 ha
    exact ⟨Finset.ne_empty_of_mem this, this, mem_activeMarks_nonneg this⟩
  · right
    refine ⟨?_, h3 ha⟩
    rw [Finset.eq_empty_iff_forall_notMem]
    intro x hx
    exact ha (activeMarks_nonempty hx)

/-- Unfragmented packets. -/
theorem lbDecide_unfrag {c : LbConf} (hd : MagInv c.magd) {proto : Nat} {data : Packet} {p : Parsed}
    (hp : getHashKey c.udpEncap proto data = .ok p) (h0 : 0 ≤ p.rc) (h4 : p.rc % 4 = 0) :
    ∃ fw, target c.magd (hashKey p.key c.hashMode) = .ok fw ∧
      lbDecide c proto data = .ok (.verdict (if fw < 0 then c.notargets else fw)) := by
  obtain ⟨fw, ht, _⟩ := target_cases hd (hashKey p.key c.hashMode)
  refine ⟨fw, ht, ?_⟩
  unfold lbDecide
  have h2 : ¬ (p.rc % 2 = 1) := by omega
  rw [hp]
  simp only [Res.ok_bind, if_neg (not_lt.2 h0), h4, ne_eq, not_true_eq_false, if_false, false_and, ht, h2]
  split <;> rfl

/-- `xlb` looks up the table as the others do: its test of the first slot only makes a difference for tables that are not well-formed. -/
theorem xlbDecide_eq {d : Mag} (hd : MagInv d) {proto : Nat} {data : Packet} {p : Parsed}
    (hp : getHashKey 0 proto data = .ok p) (h0 : 0 ≤ p.rc) :
    xlbDecide d proto data = target d (hashKeyAddresses p.key) := by
  obtain ⟨⟨g1, g2⟩, _⟩ := hd.good
  have hM := hd.mpos
  have hlt := Nat.mod_lt (hashKeyAddresses p.key) hM
  unfold xlbDecide target
  rw [hp]
  simp only [Res.ok_bind, if_neg (not_lt.2 h0), if_neg (show ¬ d.M = 0 by omega)]
  by_cases ha : ∃ i, ActiveAt d.active i
  · obtain ⟨hlen, hall⟩ := g1 ha
    obtain ⟨i0, hi0, _⟩ := hall 0 hM
    obtain ⟨i, hi, fw, hfw, _⟩ := hall _ hlt
    rw [hi0, hi]
    simp only [Int.toNat_natCast, hfw]
    rw [if_neg (by omega), if_neg (by omega), if_pos (by omega)]
  · obtain ⟨hlen, hall⟩ := g2 ha
    rw [hall 0 hM, hall _ hlt]
    rfl

end Nfqlb
