import Verif.Proof.PacketExact
import Verif.Props.Packet

set_option autoImplicit false

/-! C92: exactly which packets the parser reads beyond, and exactly which make it loop.  The packets are told by their bytes in
`Verif/Spec/PacketExact.lean`. -/

namespace Nfqlb.Props

open Spec

/-- C92, IPv4. Bytes outside the packet are read exactly if the ICMP header of a packet that is not a later fragment is cut;
every other packet is parsed. -/
theorem C92_ipv4 (ue : Nat) (d : Packet) :
    (getHashKey ue 0x0800 d = .ub ↔ Cut4 d) ∧ ((∃ p, getHashKey ue 0x0800 d = .ok p) ↔ ¬ Cut4 d) := by
  have e : getHashKey ue 0x0800 d = getHashKeyIpv4 ue d := rfl
  rw [e]
  rcases v4_exact ue d with ⟨h, e⟩ | ⟨h, p, e⟩
  · refine ⟨⟨fun _ => h, fun _ => e⟩, ⟨fun ⟨p, e'⟩ => ?_, fun h' => absurd h h'⟩⟩
    rw [e] at e'; cases e'
  · refine ⟨⟨fun e' => ?_, fun h' => absurd h' h⟩, ⟨fun _ => h, fun _ => ⟨p, e⟩⟩⟩
    rw [e] at e'; cases e'

/-- C92, IPv6. Bytes outside the packet are read exactly if a header is cut as `Cut6` says; the parser loops for ever exactly if the
headers after a first fragment's fragment header come to one of length 0 with an extension header next; every other packet is parsed. -/
theorem C92_ipv6 (ue : Nat) (d : Packet) :
    (getHashKey ue 0x86dd d = .ub ↔ Cut6 d) ∧ (getHashKey ue 0x86dd d = .hang ↔ Circle6 d) ∧
    ((∃ p, getHashKey ue 0x86dd d = .ok p) ↔ ¬ Cut6 d ∧ ¬ Circle6 d) := by
  have e : getHashKey ue 0x86dd d = getHashKeyIpv6 ue d := rfl
  rw [e]
  rcases v6_exact ue d with ⟨h1, h2, e⟩ | ⟨h1, h2, e⟩ | ⟨h1, h2, p, e⟩ <;> rw [e]
  · exact ⟨⟨fun _ => h1, fun _ => rfl⟩, ⟨fun h => (by cases h), fun h => absurd h h2⟩, ⟨fun ⟨_, h⟩ => (by cases h), fun h => absurd h1 h.1⟩⟩
  · exact ⟨⟨fun h => (by cases h), fun h => absurd h h1⟩, ⟨fun _ => h2, fun _ => rfl⟩, ⟨fun ⟨_, h⟩ => (by cases h), fun h => absurd h2 h.2⟩⟩
  · exact ⟨⟨fun h => (by cases h), fun h => absurd h h1⟩, ⟨fun h => (by cases h), fun h => absurd h h2⟩, ⟨fun _ => ⟨h1, h2⟩, fun _ => ⟨p, rfl⟩⟩⟩

/-- C92. That the parser loops does not hang on the bound the model puts on the number of turns: for a packet of `Circle6` the loop over the
headers has not ended after any number of turns, and for every other first fragment it has ended, or left the packet, within `length + 2`. -/
theorem C92_turns (d : Packet) (pos : Nat) :
    ((∀ turns, walkFrag d turns 44 pos = .hang) ↔ Circles d pos) ∧
    (¬ Circles d pos → ∀ turns, d.length + 2 ≤ turns → walkFrag d turns 44 pos ≠ .hang) := by
  have key : ∀ turns, d.length + 2 ≤ turns → walkFrag d turns 44 pos = .hang → Circles d pos := by
    intro turns ht h
    rcases walkFrag_three d _ turns 44 pos (Nat.le_refl _) (by omega) with ⟨_, _, _, e⟩ | ⟨e, _⟩ | ⟨_, hl⟩
    · rw [e] at h; cases h
    · rw [e] at h; cases h
    · exact hl
  refine ⟨⟨fun h => key _ (Nat.le_refl _) (h _), ?_⟩, fun hn turns ht h => hn (key turns ht h)⟩
  rintro ⟨t', p', n, h1, h2, h3, h4, h5⟩ turns
  exact circles_walk h1 h2 h3 h4 h5 turns

/-! ### Cases -/

/-- An echo request cut after the type, of 29 bytes, in an IPv4 header with two words of options. -/
example : Cut4 ([0x47, 0, 0, 29, 0, 0, 0, 0, 64, 1, 0, 0, 10, 0, 0, 1, 10, 0, 0, 2, 1, 1, 1, 1, 1, 1, 1, 1, 8] : List UInt8) :=
  ⟨by decide, 0x47, 0, 0, rfl, by decide, rfl, rfl, by decide, rfl, Or.inr ⟨rfl, by decide⟩⟩

/-- With a type other than echo request the same packet is parsed. -/
example : ¬ Cut4 ([0x47, 0, 0, 29, 0, 0, 0, 0, 64, 1, 0, 0, 10, 0, 0, 1, 10, 0, 0, 2, 1, 1, 1, 1, 1, 1, 1, 1, 0] : List UInt8) := by
  rintro ⟨_, b, _, _, e, _, _, _, _, _, h⟩
  cases e
  rcases h with h | h
  · exact absurd h (by decide)
  · exact absurd h.1 (by decide)

/-- A whole TCP packet is not cut. -/
example : ¬ Cut4 tcp4.bytes := by
  rintro ⟨_, b, _, _, _, _, _, _, _, h, _⟩
  exact absurd h (by decide +kernel)

/-- A first fragment with destination options makes the parser loop. -/
example : Circle6 hanging.bytes := by
  refine ⟨40, ⟨by decide +kernel, 44, by decide +kernel, .frag⟩, ⟨by decide +kernel, 0, 1, by decide +kernel, by decide +kernel, by decide⟩,
    44, 40, 60, .here, ?_, by decide +kernel, ?_, by decide +kernel⟩ <;> unfold IsExt <;> decide

/-- A first fragment whose reserved byte is 3 leads out of the packet, though the fragment header is followed by 16 bytes. -/
def leaving : V6 := { tcp6 with nxt := 44, payload := FragHdr.bytes ⟨60, 3, (0, 1), (1, 2), (3, 4)⟩ ++ [6, 0, 1, 4, 0, 0, 0, 0, 0, 1, 2, 3, 4, 5, 6, 7] }

example : Cut6 leaving.bytes := by
  refine ⟨44, 40, ⟨by decide +kernel, 44, by decide +kernel, .frag⟩, Or.inr (Or.inr (Or.inl ⟨rfl,
    ⟨by decide +kernel, 0, 1, by decide +kernel, by decide +kernel, by decide⟩, 60, 64,
    .step ?_ (n := 60) (l := 3) (by decide +kernel) (by decide +kernel) .here, ?_, by decide +kernel⟩))⟩ <;> unfold IsExt <;> decide

example : ¬ Cut6 tcp6.bytes ∧ ¬ Circle6 tcp6.bytes := by
  rw [← (C92_ipv6 0 tcp6.bytes).2.2]
  cases h : getHashKey 0 0x86dd tcp6.bytes with
  | ok p => exact ⟨p, rfl⟩
  | _ => exact absurd h (by decide +kernel)

end Nfqlb.Props
