import Verif.Proof.Reassembler

/-! The properties C27 and C28: the reassembler. -/

set_option autoImplicit false

namespace Nfqlb.Props

open Nfqlb.Ra

/-! ### C27: completion -/

/-- C27, partial: for all datagrams of up to 2^32 - 1 bytes, all sequences of their fragments, with duplicates and overlaps, and all contents of the pool at each call, the
reassembler answers "complete" (0) to a fragment if and only if the last fragment and every byte have arrived.
Missing: sequences in which a fragment leaves a gap on both sides (`NoGap`); see `C27_violated`. -/
theorem C27_complete_partial (L : Nat) (hL : 0 < L) (hmax : L ≤ 4294967295) (fs : List (Frag × HolePool)) (f : Frag) (pool : HolePool)
    (hgen : ∀ g ∈ fs, Genuine L g.1) (hf : Genuine L f) (hgap : NoGap (fs.map Prod.fst ++ [f])) :
    ∃ holes rc holes' pool', feed [⟨0, 4294967295⟩] fs = .ok holes ∧
      handleFragment holes f.first f.len f.more pool = .ok (rc, holes', pool') ∧
      (rc = 0 ∨ rc = 1) ∧ (rc = 0 ↔ Complete L (fs.map Prod.fst ++ [f])) := by
  have hn : NoGap ([] ++ fs.map Prod.fst) := by
    intro pre g post he
    exact hgap pre g (post ++ [f]) (by simp only [List.nil_append] at he; rw [he]; simp)
  obtain ⟨hs, h1, h2⟩ := inv_feed L hmax fs [] _ (inv_start L hL hmax) hgen hn
  simp only [List.nil_append] at h2
  obtain ⟨rc, hs', p', h3, h4, h5⟩ := inv_step hmax h2 f hf (hgap (fs.map Prod.fst) f [] (by simp)) pool
  refine ⟨hs, rc, hs', p', h1, h3, ?_, ?_⟩
  · rw [handle_eq _ _ _ _ _ hf.1 (by have := hf.2; split at this <;> omega)] at h3
    rcases hc : loop f.first (f.first + f.len - 1) f.more (2 * hs.length + pool.length + 1) false pool hs with ⟨l, p⟩ | _ | _ | _ <;> rw [hc] at h3
    · simp only [Res.ok_bind, Res.pure_eq, Res.ok.injEq, Prod.mk.injEq] at h3
      rw [← h3.1]
      split <;> simp
    all_goals simp at h3
  · rw [h5]; exact inv_complete h4

/-- The hypotheses can be met: three fragments of a datagram of 24 bytes, the last one first, one twice. -/
example : (∀ g ∈ [((⟨16, 8, false⟩ : Frag), ([] : HolePool)), (⟨0, 8, true⟩, [⟨3, 4⟩]), (⟨0, 8, true⟩, [])], Genuine 24 g.1) ∧ Genuine 24 ⟨8, 8, true⟩ ∧
    NoGap [⟨16, 8, false⟩, ⟨0, 8, true⟩, ⟨0, 8, true⟩, ⟨8, 8, true⟩] := by
  refine ⟨by simp [Genuine], by simp [Genuine], ?_⟩
  intro pre f post h hm
  rcases pre with _ | ⟨a, _ | ⟨b, _ | ⟨c, _ | ⟨d, pre⟩⟩⟩⟩ <;> simp at h
  · obtain ⟨rfl, _⟩ := h; simp at hm
  · obtain ⟨_, rfl, _⟩ := h; simp
  · obtain ⟨_, _, rfl, _⟩ := h; simp
  · obtain ⟨rfl, rfl, rfl, rfl, _⟩ := h; right; left; simp [Covered]

/-- The answer in this case. -/
example : (do
    let holes ← feed [⟨0, 4294967295⟩] [(⟨16, 8, false⟩, []), (⟨0, 8, true⟩, [⟨3, 4⟩]), (⟨0, 8, true⟩, [])]
    let (rc, _, _) ← handleFragment holes 8 8 true []
    return rc) = .ok 0 := by decide +kernel

/-- C27: what `raHandleFragment` reads from an IPv4 packet is the fragment it carries. -/
theorem C27_ipv4 (data : Packet) (f : Frag) (h : CarriesV4 data f) (r : Reass) (pool : HolePool) :
    raHandleFragment (some r) data pool = (do
      let (rc, l, p) ← handleFragment r.holes f.first f.len f.more pool
      return ((rc : Int), some { r with holes := l }, p)) := by
  unfold raHandleFragment
  simp only [parse_v4 h, Res.ok_bind]

/-- The hypothesis can be met: 8 bytes at offset 16. -/
example : CarriesV4 [0x45, 0, 0, 28, 0, 1, 0x20, 2, 64, 17, 0, 0, 10, 0, 0, 1, 10, 0, 0, 2, 1, 2, 3, 4, 5, 6, 7, 8] ⟨16, 8, true⟩ :=
  ⟨5, 2, by decide, by decide, rfl, by decide, ⟨_, rfl, rfl⟩, ⟨_, _, rfl, rfl, rfl⟩, ⟨_, _, rfl, rfl, rfl⟩, by decide, rfl⟩

/-- C27: what `raHandleFragment` reads from an IPv6 packet without other extension headers is the fragment it carries. -/
theorem C27_ipv6 (data : Packet) (f : Frag) (h : CarriesV6 data f) (r : Reass) (pool : HolePool) :
    raHandleFragment (some r) data pool = (do
      let (rc, l, p) ← handleFragment r.holes f.first f.len f.more pool
      return ((rc : Int), some { r with holes := l }, p)) := by
  unfold raHandleFragment
  simp only [parse_v6 h, Res.ok_bind]

/-- The hypothesis can be met: 8 bytes at offset 16. -/
example : CarriesV6 ([0x60, 0, 0, 0, 0, 16, 44, 64] ++ List.replicate 32 1 ++ [17, 0, 0, 17, 0, 0, 0, 9] ++ [1, 2, 3, 4, 5, 6, 7, 8]) ⟨16, 8, true⟩ :=
  ⟨rfl, by decide, by decide, ⟨_, rfl, rfl⟩, rfl, ⟨_, _, rfl, rfl, rfl⟩, rfl⟩

/-- C27: a fragment without any byte, also one that says that it is the last, never completes a datagram and changes nothing. -/
theorem C27_empty (data : Packet) (h : HeadersOnly data) (r : Reass) (pool : HolePool) :
    ∃ rc : Int, rc ≠ 0 ∧ raHandleFragment (some r) data pool = .ok (rc, some r, pool) := by
  unfold raHandleFragment
  rcases h with ⟨b, hb, h4, hi, hl⟩ | ⟨⟨b, hb, h6⟩, hn, hl⟩
  · rcases empty_v4 hb h4 hi hl with e | ⟨x, y, e⟩
    · exact ⟨-1, by decide, by simp only [e, Res.ok_bind]⟩
    · exact ⟨1, by decide, by simp only [e, Res.ok_bind, handleFragment, if_true, Res.pure_eq]; rfl⟩
  · exact ⟨-1, by decide, by simp only [empty_v6 hb h6 hn hl, Res.ok_bind]⟩

/-- The hypothesis can be met: an IPv4 header with one option, the last fragment at offset 16. -/
example : HeadersOnly [0x46, 0, 0, 24, 0, 1, 0, 2, 64, 17, 0, 0, 10, 0, 0, 1, 10, 0, 0, 2, 1, 1, 1, 1] ∧
    raHandleFragment (some ⟨⟨0, 0⟩, [⟨0, 15⟩]⟩) [0x46, 0, 0, 24, 0, 1, 0, 2, 64, 17, 0, 0, 10, 0, 0, 1, 10, 0, 0, 2, 1, 1, 1, 1] [] = .ok (1, some ⟨⟨0, 0⟩, [⟨0, 15⟩]⟩, []) :=
  ⟨.inl ⟨_, rfl, rfl, by decide, rfl⟩, by decide +kernel⟩

/-- An IPv4 packet with 8 bytes of payload at `8 * off`. -/
private def pkt8 (more : Bool) (off : UInt8) : Packet :=
  [0x45, 0, 0, 28, 0, 1, if more then 0x20 else 0, off, 64, 17, 0, 0, 10, 0, 0, 1, 10, 0, 0, 2, 1, 2, 3, 4, 5, 6, 7, 8]

/-- C27 is violated: with a pool of four items, whatever is in their memory, there are two datagrams such that after a part of the first one was received and has
expired, the second one is reported complete although its bytes 0 to 7 have never arrived: only the fragments with the bytes 8-15 and 16-23 of 24 were received.
A hole split in two keeps only its upper part, and the item for the other part is taken over with the contents it has from another datagram. -/
theorem C27_violated (w x y z : Hole) :
    CarriesV4 (pkt8 true 1) ⟨8, 8, true⟩ ∧ CarriesV4 (pkt8 false 2) ⟨16, 8, false⟩ ∧
    ¬ Complete 24 [⟨8, 8, true⟩, ⟨16, 8, false⟩] ∧
    ∃ s r r' p', run ⟨[w, x, y, z], []⟩ [.new, .new, .frag 0 (pkt8 true 0), .destroy 0, .frag 0 (pkt8 true 1)] = .ok s ∧
      s.live = [some r] ∧ raHandleFragment (some r) (pkt8 false 2) s.pool = .ok (0, some r', p') := by
  refine ⟨?_, ?_, ?_, ⟨_, _⟩, _, _, _, rfl, rfl, rfl⟩
  · exact ⟨5, 1, by decide, by decide, rfl, by decide, ⟨_, rfl, rfl⟩, ⟨_, _, rfl, rfl, rfl⟩, ⟨_, _, rfl, rfl, rfl⟩, by decide, rfl⟩
  · exact ⟨5, 2, by decide, by decide, rfl, by decide, ⟨_, rfl, rfl⟩, ⟨_, _, rfl, rfl, rfl⟩, ⟨_, _, rfl, rfl, rfl⟩, by decide, rfl⟩
  · rintro ⟨-, h⟩
    have := h 0 (by decide)
    simp [Covered] at this

/-- C27, a second cause: a hole that does not overlap the fragment is dropped when the hole before it was filled (`itemDeleted` stays set). Here the bytes 8 to 15 arrive,
and the missing bytes from 24 on are forgotten. -/
theorem C27_drops_next_hole (pool : HolePool) :
    ∃ pool', handleFragment [⟨8, 15⟩, ⟨24, 4294967295⟩] 8 8 true pool = .ok (0, [], pool') := by
  refine ⟨⟨24, 4294967295⟩ :: ⟨8, 15⟩ :: pool, ?_⟩
  rw [handle_eq _ _ _ _ _ (by decide) (by decide), show 2 * [(⟨8, 15⟩ : Hole), ⟨24, 4294967295⟩].length + pool.length + 1 = pool.length + 2 + 1 + 1 + 1 from by simp; omega]
  simp [loop]

/-! ### C28: survival -/

/-- C28: the reassembler never loops for ever, for all sequences of calls for any number of datagrams, all packets, all pool sizes and contents. -/
theorem C28_terminates (pool : HolePool) (ops : List Op) : run ⟨pool, []⟩ ops ≠ .hang ∧ run ⟨pool, []⟩ ops ≠ .die := run_no_hang ops _

/-- C28: in all histories, the items that are free and those that are in use by the datagrams not yet finished are always as many as the pool had at the start; in particular
all are back when all datagrams are finished. -/
theorem C28_given_back (pool : HolePool) (ops : List Op) (s : State) (h : run ⟨pool, []⟩ ops = .ok s) :
    s.pool.length + held s.live = pool.length ∧ (s.live = [] → s.pool.length = pool.length) := by
  have := run_count ops _ _ h
  simp only [held, List.map_nil, List.sum_nil] at this
  refine ⟨by simp only [held]; omega, fun h => ?_⟩
  rw [h] at this
  simp at this
  omega

/-- The hypothesis can be met, also with holes that are split. -/
example : (do
    let s ← run ⟨List.replicate 6 ⟨0, 0⟩, []⟩ [.new, .new, .frag 1 (pkt8 true 1), .frag 0 (pkt8 true 0), .destroy 0]
    return (s.pool.length, held s.live)) = .ok (3, 3) := by decide +kernel

/-- C28, partial: as long as no fragment leaves a gap on both sides, no call fails, also when the pool has no free items.
Missing: other sequences, see `C28_violated`. -/
theorem C28_survives_partial (L : Nat) (hL : 0 < L) (hmax : L ≤ 4294967295) (fs : List (Frag × HolePool)) (hgen : ∀ g ∈ fs, Genuine L g.1)
    (hgap : NoGap (fs.map Prod.fst)) : ∃ holes, feed [⟨0, 4294967295⟩] fs = .ok holes := by
  obtain ⟨hs, h1, -⟩ := inv_feed L hmax fs [] _ (inv_start L hL hmax) hgen (by simpa using hgap)
  exact ⟨hs, h1⟩

/-- C28: reading the packet is safe for all packets that have at least the 7 bytes of a header that the caller has checked already (C09-C11), whatever their contents. -/
theorem C28_packet_safe (data : Packet) (h : 7 ≤ data.length) : ∃ r, parseFragment data = .ok r :=
  parse_safe data (by omega) (fun _ => h)

/-- The hypothesis can be met by a packet that is too short for its headers. -/
example : 7 ≤ [(0x60 : UInt8), 0, 0, 0, 0, 0, 44].length ∧ parseFragment [0x60, 0, 0, 0, 0, 0, 44] = .ok (.inl (-1)) := by decide +kernel

/-- C28 is violated: for each datagram, when the pool has no free item left, a fragment in the middle makes the reassembler dereference NULL. -/
theorem C28_violated (r : Reass) (hr : r.holes = [⟨0, 4294967295⟩]) (data : Packet) (f : Frag) (hd : CarriesV4 data f ∨ CarriesV6 data f)
    (h1 : 0 < f.first) (h2 : f.first + f.len < 4294967295) (hm : f.more = true) : raHandleFragment (some r) data [] = .ub := by
  have hl : 0 < f.len := by
    rcases hd with ⟨_, _, _, _, _, h, _⟩ | ⟨_, h, _⟩ <;> exact h
  have hu : handleFragment r.holes f.first f.len f.more [] = .ub := by
    rw [hr, handle_eq _ _ _ _ _ hl (by omega)]
    have a1 : ¬(4294967295 < f.first ∨ f.first + f.len - 1 < 0) := by omega
    have a2 : f.first + f.len - 1 < 4294967295 ∧ f.more = true := ⟨by omega, hm⟩
    simp only [List.length_cons, List.length_nil, loop, a1, h1, a2, if_false, if_true, and_self, Res.ub_bind]
  rcases hd with h | h
  · rw [C27_ipv4 _ _ h, hu]; rfl
  · rw [C27_ipv6 _ _ h, hu]; rfl

/-- The state in `C28_violated` is reached with a pool of two items and one datagram; the packet is an ordinary fragment. -/
theorem C28_violated_reachable (x y : Hole) : run ⟨[x, y], []⟩ [.new, .frag 0 (pkt8 true 1)] = .ub := by rfl

end Nfqlb.Props
