import Verif.Proof.Lb
import Verif.Props.MaglevRace
import Verif.Props.Packet

/-! Properties C09, C11 (and C10 for targets): what `nfqlb lb` does with a packet. -/

set_option autoImplicit false

namespace Nfqlb.Props

open Nfqlb Nfqlb.Spec Nfqlb.Maglev

/-- C09. The verdict for an unfragmented packet that the parser accepts: an active fwmark if there is an active target, and
`notargets_fwmark` exactly if there is none. -/
theorem C09_valid_target (c : LbConf) (hr : Reachable c.magd) (proto : Nat) (data : Packet) (p : Parsed)
    (hp : getHashKey c.udpEncap proto data = .ok p) (h0 : 0 ≤ p.rc) (h4 : p.rc % 4 = 0) :
    ∃ fw, lbDecide c proto data = .ok (.verdict fw) ∧
      (activeMarks c.magd.active ≠ ∅ → fw ∈ activeMarks c.magd.active) ∧
      (activeMarks c.magd.active = ∅ → fw = c.notargets) := by
  obtain ⟨fw, h1, h2⟩ := lbDecide_unfrag hr.inv hp h0 h4
  obtain ⟨fw', h1', h3⟩ := target_cases hr.inv (hashKey p.key c.hashMode)
  rw [h1] at h1'
  simp only [Res.ok.injEq] at h1'
  subst h1'
  refine ⟨_, h2, ?_, ?_⟩
  · intro hne
    rcases h3 with ⟨_, h, hpos⟩ | ⟨h, _⟩
    · rw [if_neg (by omega)]; exact h
    · exact absurd h hne
  · intro he
    rcases h3 with ⟨h, _⟩ | ⟨_, rfl⟩
    · exact absurd he h
    · rfl

/-- C09. Unfragmented packets with the same key get the same verdict. -/
theorem C09_affinity (c : LbConf) (hr : Reachable c.magd) (proto proto' : Nat) (data data' : Packet) (p p' : Parsed)
    (hp : getHashKey c.udpEncap proto data = .ok p) (h0 : 0 ≤ p.rc) (h4 : p.rc % 4 = 0)
    (hp' : getHashKey c.udpEncap proto' data' = .ok p') (h0' : 0 ≤ p'.rc) (h4' : p'.rc % 4 = 0)
    (hk : p.key = p'.key) : lbDecide c proto data = lbDecide c proto' data' := by
  obtain ⟨fw, h1, h2⟩ := lbDecide_unfrag hr.inv hp h0 h4
  obtain ⟨fw', h1', h2'⟩ := lbDecide_unfrag hr.inv hp' h0' h4'
  rw [hk, h1'] at h1
  simp only [Res.ok.injEq] at h1
  rw [h2, h2', h1]

/-- C09 and C14. All unfragmented IPv4 TCP, UDP or SCTP packets of a flow (addresses, protocol, ports) get the same verdict, whatever their
other header fields, options and contents. -/
theorem C09_flow_ipv4 (c : LbConf) (hr : Reachable c.magd) (x y : V4) (l m : L4) (hx : x.WF) (hy : y.WF) (hl : l.WF) (hm : m.WF)
    (hxu : x.Unfragmented) (hyu : y.Unfragmented) (hpr : HasPorts x.proto) (hp : x.payload = l.bytes) (hq : y.payload = m.bytes)
    (hue : c.udpEncap = 0 ∨ x.proto ≠ 17 ∨ portNum l.dport ≠ c.udpEncap)
    (hsame : y.src = x.src ∧ y.dst = x.dst ∧ y.proto = x.proto ∧ m.sport = l.sport ∧ m.dport = l.dport) :
    lbDecide c 0x0800 x.bytes = lbDecide c 0x0800 y.bytes := by
  obtain ⟨h1, h2, h3, h4, h5⟩ := hsame
  refine C09_affinity c hr _ _ _ _ _ _ (C14_ipv4_five_tuple _ x l hx hl hxu hpr hp hue) (Int.le_refl 0) rfl
    (C14_ipv4_five_tuple _ y m hy hm hyu (by rw [h3]; exact hpr) hq (by rw [h3, h5]; exact hue)) (Int.le_refl 0) rfl ?_
  simp only [h1, h2, h3, h4, h5]

/-- C09 and C15. The same for IPv6 packets without extension headers. -/
theorem C09_flow_ipv6 (c : LbConf) (hr : Reachable c.magd) (x y : V6) (l m : L4) (hx : x.WF) (hy : y.WF) (hl : l.WF) (hm : m.WF)
    (hpr : HasPorts x.nxt) (hp : x.payload = l.bytes) (hq : y.payload = m.bytes)
    (hue : c.udpEncap = 0 ∨ x.nxt ≠ 17 ∨ portNum l.dport ≠ c.udpEncap)
    (hsame : y.src = x.src ∧ y.dst = x.dst ∧ y.nxt = x.nxt ∧ m.sport = l.sport ∧ m.dport = l.dport) :
    lbDecide c 0x86dd x.bytes = lbDecide c 0x86dd y.bytes := by
  obtain ⟨h1, h2, h3, h4, h5⟩ := hsame
  refine C09_affinity c hr _ _ _ _ _ _ (C15_ipv6_five_tuple_partial _ x l hx hl hpr hp hue) (Int.le_refl 0) rfl
    (C15_ipv6_five_tuple_partial _ y m hy hm (by rw [h3]; exact hpr) hq (by rw [h3, h5]; exact hue)) (Int.le_refl 0) rfl ?_
  simp only [h1, h2, h3, h4, h5]

/-- C10. With hash_mode 1 SCTP packets with the same ports reach the same target whatever their addresses. -/
theorem C10_same_target (c : LbConf) (hr : Reachable c.magd) (hmode : c.hashMode = 1) (x y : V4) (l m : L4) (hx : x.WF) (hy : y.WF)
    (hl : l.WF) (hm : m.WF) (hxu : x.Unfragmented) (hyu : y.Unfragmented) (hxp : x.proto = 132) (hyp : y.proto = 132)
    (hp : x.payload = l.bytes) (hq : y.payload = m.bytes) (hsame : m.sport = l.sport ∧ m.dport = l.dport) :
    lbDecide c 0x0800 x.bytes = lbDecide c 0x0800 y.bytes := by
  obtain ⟨h4, h5⟩ := hsame
  have hn : (132 : UInt8) ≠ 17 := by decide
  have e1 := C14_ipv4_five_tuple c.udpEncap x l hx hl hxu (by rw [hxp]; exact Or.inr (Or.inr rfl)) hp (Or.inr (Or.inl (by rw [hxp]; exact hn)))
  have e2 := C14_ipv4_five_tuple c.udpEncap y m hy hm hyu (by rw [hyp]; exact Or.inr (Or.inr rfl)) hq (Or.inr (Or.inl (by rw [hyp]; exact hn)))
  obtain ⟨fw, h1, h2⟩ := lbDecide_unfrag hr.inv e1 (Int.le_refl 0) rfl
  obtain ⟨fw', h1', h2'⟩ := lbDecide_unfrag hr.inv e2 (Int.le_refl 0) rfl
  have hh : hashKey (flowKey y.src.mapped y.dst.mapped y.proto m.sport m.dport) c.hashMode
      = hashKey (flowKey x.src.mapped x.dst.mapped x.proto l.sport l.dport) c.hashMode := by
    rw [hmode]
    exact C10_multihomed _ _ (by simp [flowKey, hyp]) (by simp [flowKey, hxp]) h4 h5
  simp only at h1 h1'
  rw [hh, h1] at h1'
  simp only [Res.ok.injEq] at h1'
  rw [h2, h2', h1']

/-- A configuration with targets 5 and 7, without lb-tier. -/
def demoConf : LbConf :=
  { udpEncap := 9899, hashMode := 0, notargets := 77, magd := demoWith [0, 0, 2, 2, 2, 0, 0] [5, -1, 7], tier := none }

example : Reachable demoConf.magd ∧ lbDecide demoConf 0x0800 tcp4.bytes = .ok (.verdict 5) ∧
    lbDecide { demoConf with magd := demo } 0x0800 tcp4.bytes = .ok (.verdict 77) ∧
    getHashKey demoConf.udpEncap 0x0800 tcp4.bytes = .ok { rc := 0, key := flowKey a1.mapped a2.mapped 6 (4, 0) (0, 80), fragid := none } := by
  refine ⟨demo_reachable, ?_, ?_, ?_⟩ <;> decide +kernel

/-! ### C11 -/

/-- C11. In a tier with table `d` there is for each pair of addresses one mark `m` such that any load-balancer (with any targets and options
of its own) sends every fragment between these addresses to `m`, unless `m` is its own mark: then it handles the fragment itself, as if there
was no tier. If no member of the tier is active (`m = -1`) everyone handles it itself. -/
theorem C11_one_member (d : Mag) (hr : Reachable d) (src dst : List UInt8) :
    ∃ m : Int, ((activeMarks d.active ≠ ∅ ∧ m ∈ activeMarks d.active) ∨ (activeMarks d.active = ∅ ∧ m = -1)) ∧
      ∀ (c : LbConf) (own : Int) (proto : Nat) (data : Packet) (p : Parsed),
        c.tier = some (d, own) → getHashKey c.udpEncap proto data = .ok p → 0 ≤ p.rc → p.rc % 4 ≠ 0 →
        p.key.src = src → p.key.dst = dst →
        (0 ≤ m ∧ own ≠ m → lbDecide c proto data = .ok (.verdict m)) ∧
        (m < 0 ∨ own = m → lbDecide c proto data = lbDecide { c with tier := none } proto data) := by
  obtain ⟨m, h1, h2⟩ := target_cases hr.inv (Spec.djb2 (src ++ dst))
  refine ⟨m, ?_, ?_⟩
  · rcases h2 with ⟨a, b, _⟩ | h
    · exact Or.inl ⟨a, b⟩
    · exact Or.inr h
  · intro c own proto data p ht hp h0 h4 hs hd
    have hh : hashKeyAddresses p.key = Spec.djb2 (src ++ dst) := by rw [C10_tier, hs, hd]
    have hred : tierRedirect c.tier p.key = .ok (if 0 ≤ m ∧ m ≠ own then some m else none) := by
      rw [ht]; simp only [tierRedirect, hh, h1, Res.ok_bind]; rfl
    constructor
    · rintro ⟨hm, hne⟩
      unfold lbDecide
      rw [hp]
      simp only [Res.ok_bind, if_neg (not_lt.2 h0), h4, ne_eq, not_false_eq_true, if_true, hred]
      rw [if_pos ⟨hm, fun h => hne h.symm⟩]
      rfl
    · intro hm
      unfold lbDecide
      simp only
      rw [hp]
      simp only [Res.ok_bind, if_neg (not_lt.2 h0), h4, ne_eq, not_false_eq_true, if_true, hred]
      rw [if_neg (by rintro ⟨a, b⟩; rcases hm with h | h; omega; exact b h.symm)]
      rfl

/-- C11. The fragments of an IPv4 datagram, first or later, are such fragments. -/
theorem C11_ipv4_fragments (ue : Nat) (x : V4) (hx : x.WF) (hp : x.payload ≠ []) (hf : x.FirstFragment ∨ x.LaterFragment) (p : Parsed)
    (h : getHashKey ue 0x0800 x.bytes = .ok p) (hrc : 0 ≤ p.rc) :
    p.rc % 4 ≠ 0 ∧ p.key.src = x.src.mapped ∧ p.key.dst = x.dst.mapped := by
  rcases hf with hf | hf
  · obtain ⟨_, h1, _, h3, h4⟩ := v4_first ue hx hp hf h hrc
    exact ⟨by omega, h3, h4⟩
  · rw [C16_ipv4_later ue x hx hp hf] at h
    simp only [Res.ok.injEq] at h
    subst h
    exact ⟨by show (2 : Int) % 4 ≠ 0; decide, rfl, rfl⟩

/-- C11. The fragments of an IPv6 datagram, first or later, are such fragments. -/
theorem C11_ipv6_fragments (ue : Nat) (x : V6) (f : FragHdr) (rest : List UInt8) (hx : x.WF) (hn : x.nxt = 44)
    (hp : x.payload = f.bytes ++ rest) (p : Parsed) (h : getHashKey ue 0x86dd x.bytes = .ok p) (hrc : 0 ≤ p.rc) :
    p.rc % 4 ≠ 0 ∧ p.key.src = x.src ∧ p.key.dst = x.dst := by
  by_cases hf : f.offset = 0
  · obtain ⟨_, h1, _, h3, h4⟩ := v6_first ue hx hn hp hf h hrc
    exact ⟨by omega, h3, h4⟩
  · rw [C16_ipv6_later_partial ue x f rest hx hn hp hf] at h
    simp only [Res.ok.injEq] at h
    subst h
    exact ⟨by show (2 : Int) % 4 ≠ 0; decide, rfl, rfl⟩

/-- Two members of a tier (5 and 7) get the same fragments: 5 redirects both to 7, 7 handles both. -/
example : Reachable (demoWith [0, 0, 2, 2, 2, 0, 0] [5, -1, 7]) ∧
    (let tier := demoWith [0, 0, 2, 2, 2, 0, 0] [5, -1, 7]
     lbDecide { demoConf with tier := some (tier, 5) } 0x0800 frag4a.bytes = .ok (.verdict 7) ∧
     lbDecide { demoConf with tier := some (tier, 5) } 0x0800 frag4b.bytes = .ok (.verdict 7) ∧
     lbDecide { demoConf with tier := some (tier, 7) } 0x0800 frag4a.bytes = .ok (.first (fragKey a1.mapped a2.mapped (1, 2) (0, 0)) 5) ∧
     lbDecide { demoConf with tier := some (tier, 7) } 0x0800 frag4b.bytes = .ok (.later (fragKey a1.mapped a2.mapped (1, 2) (0, 0)))) := by
  refine ⟨demo_reachable, ?_⟩; decide +kernel

/-- C16 and C17 for the handler: first fragment and later fragments of an IPv4 datagram (handled here, with some active target) use one key of
the fragment table, and the first fragment is registered with the mark that unfragmented packets of its flow get. -/
theorem C17_handler_ipv4_partial (c : LbConf) (hr : Reachable c.magd) (hne : activeMarks c.magd.active ≠ ∅) (hnt : c.tier = none)
    (x y z : V4) (l m : L4) (hx : x.WF) (hy : y.WF) (hz : z.WF) (hl : l.WF) (hm : m.WF)
    (hf : x.FirstFragment) (hyl : y.LaterFragment) (hzu : z.Unfragmented) (hpr : HasPorts x.proto)
    (hp : x.payload = l.bytes) (hpy : y.payload ≠ []) (hpz : z.payload = m.bytes)
    (hue : c.udpEncap = 0 ∨ x.proto ≠ 17 ∨ portNum l.dport ≠ c.udpEncap)
    (hdg : y.src = x.src ∧ y.dst = x.dst ∧ y.ident = x.ident)
    (hflow : z.src = x.src ∧ z.dst = x.dst ∧ z.proto = x.proto ∧ m.sport = l.sport ∧ m.dport = l.dport) :
    ∃ k fw, lbDecide c 0x0800 x.bytes = .ok (.first k fw) ∧ lbDecide c 0x0800 y.bytes = .ok (.later k) ∧
      lbDecide c 0x0800 z.bytes = .ok (.verdict fw) := by
  obtain ⟨d1, d2, d3⟩ := hdg
  obtain ⟨f1, f2, f3, f4, f5⟩ := hflow
  have ex := C17_ipv4_first c.udpEncap x l hx hl hf hpr hp hue
  have ey := C16_ipv4_later c.udpEncap y hy hpy hyl
  have ez := C14_ipv4_five_tuple c.udpEncap z m hz hm hzu (by rw [f3]; exact hpr) hpz (by rw [f3, f5]; exact hue)
  obtain ⟨fw, h1, h2⟩ := lbDecide_unfrag hr.inv ez (Int.le_refl 0) rfl
  obtain ⟨fw', h1', h3⟩ := target_cases hr.inv (hashKey (flowKey z.src.mapped z.dst.mapped z.proto m.sport m.dport) c.hashMode)
  have h1'' := h1
  rw [h1'] at h1''
  simp only [Res.ok.injEq] at h1''
  subst h1''
  have hpos : ¬ (fw' < 0) := by
    rcases h3 with ⟨_, _, h⟩ | ⟨h, _⟩
    · omega
    · exact absurd h hne
  refine ⟨fragKey x.src.mapped x.dst.mapped x.ident (0, 0), fw', ?_, ?_, ?_⟩
  · unfold lbDecide
    rw [ex]
    simp only [f1, f2, f3, f4, f5] at h1
    simp only [Res.ok_bind, hnt, tierRedirect, h1, hpos]
    rfl
  · unfold lbDecide
    rw [ey]
    simp only [Res.ok_bind, hnt, tierRedirect, d1, d2, d3]
    rfl
  · rw [h2, if_neg hpos]

example : activeMarks demoConf.magd.active ≠ ∅ ∧ demoConf.tier = none ∧
    lbDecide demoConf 0x0800 frag4a.bytes = .ok (.first (fragKey a1.mapped a2.mapped (1, 2) (0, 0)) 5) := by
  refine ⟨?_, rfl, ?_⟩ <;> decide +kernel

/-- `xlb` (C09 for the addresses-only load-balancer): any packet that the parser accepts gets an active fwmark if there is an active target and -1
if there is none, and the verdict is a function of the two addresses. -/
theorem C09_xlb (d : Mag) (hr : Reachable d) (src dst : List UInt8) :
    ∃ m : Int, ((activeMarks d.active ≠ ∅ ∧ m ∈ activeMarks d.active) ∨ (activeMarks d.active = ∅ ∧ m = -1)) ∧
      ∀ (proto : Nat) (data : Packet) (p : Parsed), getHashKey 0 proto data = .ok p → 0 ≤ p.rc → p.key.src = src → p.key.dst = dst →
        xlbDecide d proto data = .ok m := by
  obtain ⟨m, h1, h2⟩ := target_cases hr.inv (Spec.djb2 (src ++ dst))
  refine ⟨m, ?_, ?_⟩
  · rcases h2 with ⟨a, b, _⟩ | h
    · exact Or.inl ⟨a, b⟩
    · exact Or.inr h
  · intro proto data p hp h0 hs hd
    have hh : hashKeyAddresses p.key = Spec.djb2 (src ++ dst) := by rw [C10_tier, hs, hd]
    have := xlbDecide_eq hr.inv hp h0
    rw [hh, h1] at this
    exact this

example : Reachable (demoWith [0, 0, 2, 2, 2, 0, 0] [5, -1, 7]) ∧
    xlbDecide (demoWith [0, 0, 2, 2, 2, 0, 0] [5, -1, 7]) 0x0800 tcp4.bytes = .ok 7 ∧ xlbDecide demo 0x0800 tcp4.bytes = .ok (-1) := by
  refine ⟨demo_reachable, ?_, ?_⟩ <;> decide +kernel

end Nfqlb.Props
