import Verif.Proof.PacketSafe

set_option autoImplicit false

namespace Nfqlb

open Spec

/-- The header of the quoted IPv4 packet. -/
theorem innerV4_eq (ue : Nat) (pre : Packet) (hpre : pre.length = 8) {q : V4} (hq : q.WF) (hp : q.payload ≠ []) :
    getInnerHashKeyIpv4 ue (pre ++ q.bytes) 0 =
      (let k : Key := { Key.zero with src := q.dst.mapped, dst := q.src.mapped, proto := (q.proto, 0) }
       if !hasPorts q.proto then .ok { rc := 8 + 32, key := k, fragid := none }
       else portsPart ue q.payload q.proto 0 true k 8 none) := by
  unfold getInnerHashKeyIpv4
  have hlen : 0 < q.payload.length := List.length_pos_iff.2 hp
  have hql := V4.fixed_len q
  have hb : inBounds (0 + 8) 20 (pre ++ q.bytes).length = true := by
    rw [inBounds_iff, List.length_append, hpre, hql]; omega
  have e : ∀ k, 0 + 8 + k = pre.length + k := by intro k; omega
  have e0 : (0 : Nat) + 8 = pre.length + 0 := by omega
  have r0 : rd (pre ++ q.bytes) (0 + 8) = .ok (UInt8.ofNat (4 * 16 + (5 + q.opts.length / 4))) := by
    rw [e0, rd_append_right]; rfl
  have r9 : rd (pre ++ q.bytes) (0 + 8 + 9) = .ok q.proto := by
    rw [e, rd_append_right]; rfl
  have rs : rdN (pre ++ q.bytes) (0 + 8 + 12) 4 = .ok q.src.bytes := by
    rw [e, rdN_append_right]; unfold rdN; rw [if_pos (by omega)]; rfl
  have rt : rdN (pre ++ q.bytes) (0 + 8 + 16) 4 = .ok q.dst.bytes := by
    rw [e, rdN_append_right]; unfold rdN; rw [if_pos (by omega)]; rfl
  have hbp : ∀ proto k rc f, portsPart ue (pre ++ q.bytes) proto (0 + 8 + 4 * (5 + q.opts.length / 4)) true k rc f
      = portsPart ue q.payload proto 0 true k rc f := by
    intro proto k rc f
    obtain ⟨h20, hh, hsplit⟩ := V4.split q
    have : 0 + 8 + 4 * (5 + q.opts.length / 4) = pre.length + (h20.length + 0) := by rw [hpre, hh]; have := hq.1; omega
    rw [this, portsPart_append, hsplit, portsPart_append]
  dsimp only
  simp only [hb, Bool.not_true, Bool.false_eq_true, if_false, r0, r9, rs, rt, Res.ok_bind, V4.ihl hq, mapped4_addr, hbp]
  rw [if_neg (by omega)]
  rfl

theorem v4_icmp (ue : Nat) {x : V4} {i : Icmp} (hx : x.WF) (hu : x.Unfragmented) (hpr : x.proto = 1) (hp : x.payload = i.bytes)
    (ht : i.type = 3 ∨ i.type = 4 ∨ i.type = 5 ∨ i.type = 11) :
    getHashKeyIpv4 ue x.bytes = getInnerHashKeyIpv4 ue
      ([i.type, i.code, i.csum.1, i.csum.2, i.x0.1, i.x0.2, i.x1.1, i.x1.2] ++ i.rest) 0 := by
  have h0 := (V4.frag_facts x).1 hu
  have hne : x.payload ≠ [] := by rw [hp]; simp [Icmp.bytes]
  have r0 : rd i.bytes 0 = .ok i.type := rfl
  have ht' : (decide (i.type = 3) || decide (i.type = 4) || decide (i.type = 5) || decide (i.type = 11)) = true := by
    rcases ht with h | h | h | h <;> rw [h] <;> decide
  rw [getHashKeyIpv4_eq ue hx hne]
  simp only [h0, ne_eq, not_true_eq_false, decide_false, Bool.false_and, Bool.false_eq_true, if_false, hpr, if_true, r0,
    Res.ok_bind, ht', hp]
  rfl

/-- The header of the quoted IPv6 packet. -/
theorem innerV6_eq (ue : Nat) (pre : Packet) (hpre : pre.length = 8) {q : V6} (hq : q.WF) (hp : q.payload ≠ [])
    (hn : ¬ IsExt q.nxt) :
    getInnerHashKeyIpv6 ue (pre ++ q.bytes) 0 =
      (let k : Key := { Key.zero with src := q.dst, dst := q.src, proto := (q.nxt, 0) }
       if !hasPorts q.nxt then .ok { rc := 8 + 32, key := k, fragid := none }
       else portsPart ue q.payload q.nxt 0 true k 8 none) := by
  unfold getInnerHashKeyIpv6
  have hlen : 0 < q.payload.length := List.length_pos_iff.2 hp
  have hql := V6.len hq
  have hb : inBounds (0 + 8) 40 (pre ++ q.bytes).length = true := by
    rw [inBounds_iff, List.length_append, hpre, hql]; omega
  have e : ∀ k, 0 + 8 + k = pre.length + k := by intro k; omega
  have r6 : rd (pre ++ q.bytes) (0 + 8 + 6) = .ok q.nxt := by rw [e, rd_append_right, V6.rd_nxt hq]
  have rs : rdN (pre ++ q.bytes) (0 + 8 + 8) 16 = .ok q.src := by rw [e, rdN_append_right, V6.rd_src hq]
  have rt : rdN (pre ++ q.bytes) (0 + 8 + 24) 16 = .ok q.dst := by rw [e, rdN_append_right, V6.rd_dst hq]
  have hw := walkExt_upper false (pre ++ q.bytes) q.nxt (0 + 8 + 40) hn
  have hbp : ∀ proto k rc f, portsPart ue (pre ++ q.bytes) proto (0 + 8 + 40) true k rc f
      = portsPart ue q.payload proto 0 true k rc f := by
    intro proto k rc f
    obtain ⟨h40, hh, hsplit⟩ := V6.split hq
    have : 0 + 8 + 40 = pre.length + (h40.length + 0) := by omega
    rw [this, portsPart_append, hsplit, portsPart_append]
  dsimp only
  simp only [hb, Bool.not_true, Bool.false_eq_true, if_false, r6, rs, rt, hw, Res.ok_bind, hbp]
  rfl

theorem v6_icmp (ue : Nat) {x : V6} {i : Icmp} (hx : x.WF) (hpr : x.nxt = 58) (hp : x.payload = i.bytes)
    (ht : i.type = 1 ∨ i.type = 2) :
    getHashKeyIpv6 ue x.bytes = getInnerHashKeyIpv6 ue
      ([i.type, i.code, i.csum.1, i.csum.2, i.x0.1, i.x0.2, i.x1.1, i.x1.2] ++ i.rest) 0 := by
  have hne : x.payload ≠ [] := by rw [hp]; simp [Icmp.bytes]
  have r0 : rd i.bytes 0 = .ok i.type := rfl
  have ht' : (decide (i.type = 1) || decide (i.type = 2)) = true := by
    rcases ht with h | h <;> rw [h] <;> decide
  have h58 : ¬ IsExt 58 := by unfold IsExt; decide
  have h5844 : ¬ ((58 : UInt8) = 44) := by decide
  rw [getHashKeyIpv6_eq ue hx hne, hpr, walkExt_upper _ _ _ _ h58]
  simp only [Res.ok_bind, h5844, if_false]
  unfold ipv6Upper
  simp only [if_true, r0, Res.ok_bind, ht', Bool.false_eq_true, if_false, hp]
  rfl

/-- Echo requests. -/
theorem v4_echo (ue : Nat) {x : V4} {i : Icmp} (hx : x.WF) (hu : x.Unfragmented) (hpr : x.proto = 1) (hp : x.payload = i.bytes)
    (ht : i.type = 8) :
    getHashKeyIpv4 ue x.bytes = .ok { rc := 16, fragid := none, key :=
      { src := x.src.mapped, dst := x.dst.mapped, ud := i.x0, proto := (1, 0), sport := (0, 0), dport := (0, 0) } } := by
  have h0 := (V4.frag_facts x).1 hu
  have hne : x.payload ≠ [] := by rw [hp]; simp [Icmp.bytes]
  have r0 : rd i.bytes 0 = .ok i.type := rfl
  have r4 : rd16 i.bytes 4 = .ok i.x0 := rfl
  have ht' : (decide (i.type = 3) || decide (i.type = 4) || decide (i.type = 5) || decide (i.type = 11)) = false := by
    rw [ht]; decide
  rw [getHashKeyIpv4_eq ue hx hne]
  simp only [h0, ne_eq, not_true_eq_false, decide_false, Bool.false_and, Bool.false_eq_true, if_false, hpr, if_true, r0, r4,
    Res.ok_bind, ht, hp]
  rfl

theorem v6_echo (ue : Nat) {x : V6} {i : Icmp} (hx : x.WF) (hpr : x.nxt = 58) (hp : x.payload = i.bytes) (ht : i.type = 128) :
    getHashKeyIpv6 ue x.bytes = .ok { rc := 16, fragid := none, key :=
      { src := x.src, dst := x.dst, ud := i.x0, proto := (58, 0), sport := (0, 0), dport := (0, 0) } } := by
  have hne : x.payload ≠ [] := by rw [hp]; simp [Icmp.bytes]
  have r0 : rd i.bytes 0 = .ok i.type := rfl
  have r4 : rd16 i.bytes (0 + 4) = .ok i.x0 := rfl
  have ht' : (decide (i.type = 1) || decide (i.type = 2)) = false := by rw [ht]; decide
  have h58 : ¬ IsExt 58 := by unfold IsExt; decide
  have h5844 : ¬ ((58 : UInt8) = 44) := by decide
  rw [getHashKeyIpv6_eq ue hx hne, hpr, walkExt_upper _ _ _ _ h58]
  simp only [Res.ok_bind, h5844, if_false]
  unfold ipv6Upper
  simp only [if_true, r0, r4, Res.ok_bind, Bool.false_eq_true, if_false, ht, hp]
  rfl

/-- Other ICMPv6 messages: the addresses of the packet itself. -/
theorem v6_other (ue : Nat) {x : V6} {i : Icmp} (hx : x.WF) (hpr : x.nxt = 58) (hp : x.payload = i.bytes) (h1 : i.type ≠ 1) (h2 : i.type ≠ 2) (h3 : i.type ≠ 128) :
    getHashKeyIpv6 ue x.bytes = .ok { rc := 16, fragid := none, key :=
      { src := x.src, dst := x.dst, ud := (0, 0), proto := (58, 0), sport := (0, 0), dport := (0, 0) } } := by
  have hne : x.payload ≠ [] := by rw [hp]; simp [Icmp.bytes]
  have r0 : rd i.bytes 0 = .ok i.type := rfl
  have h58 : ¬ IsExt 58 := by unfold IsExt; decide
  have h5844 : ¬ ((58 : UInt8) = 44) := by decide
  rw [getHashKeyIpv6_eq ue hx hne, hpr, walkExt_upper _ _ _ _ h58]
  simp only [Res.ok_bind, h5844, if_false]
  unfold ipv6Upper
  simp only [if_true, r0, Res.ok_bind, Bool.false_eq_true, if_false, h1, h2, h3, hp, decide_false, Bool.or_self]
  rfl

/-- Other ICMP messages. -/
theorem v4_other (ue : Nat) {x : V4} {i : Icmp} (hx : x.WF) (hu : x.Unfragmented) (hpr : x.proto = 1) (hp : x.payload = i.bytes)
    (h1 : i.type ≠ 3) (h2 : i.type ≠ 4) (h3 : i.type ≠ 5) (h4 : i.type ≠ 11) (h5 : i.type ≠ 8) :
    getHashKeyIpv4 ue x.bytes = .ok { rc := 16, fragid := none, key :=
      { src := x.src.mapped, dst := x.dst.mapped, ud := (0, 0), proto := (1, 0), sport := (0, 0), dport := (0, 0) } } := by
  have h0 := (V4.frag_facts x).1 hu
  have hne : x.payload ≠ [] := by rw [hp]; simp [Icmp.bytes]
  have r0 : rd i.bytes 0 = .ok i.type := rfl
  rw [getHashKeyIpv4_eq ue hx hne]
  simp only [h0, ne_eq, not_true_eq_false, decide_false, Bool.false_and, Bool.false_eq_true, if_false, hpr, if_true, r0,
    Res.ok_bind, h1, h2, h3, h4, h5, hp, Bool.or_self]
  rfl

/-! ### Extension headers -/

theorem ext_facts {e : ExtHdr} (he : e.WF) : (UInt8.ofNat ((e.body.length + 2) / 8 - 1)).toNat = (e.body.length + 2) / 8 - 1 := by
  obtain ⟨_, h2⟩ := he
  rw [UInt8.toNat_ofNat']
  omega

theorem ext8 (ue : Nat) {x : V6} {e : ExtHdr} {rest : List UInt8} (hx : x.WF) (he : e.body.length = 6)
    (hn : x.nxt = 0 ∨ x.nxt = 43 ∨ x.nxt = 60) (hp : x.payload = e.bytes ++ rest) :
    getHashKeyIpv6 ue x.bytes = .ok Parsed.fail := by
  have hne : x.payload ≠ [] := by rw [hp]; simp [ExtHdr.bytes]
  have hlen : 2 < x.payload.length := by rw [hp]; simp [ExtHdr.bytes, he]; omega
  have r0 : rd x.payload 0 = .ok e.nxt := by rw [hp]; rfl
  have r1 : rd x.payload (0 + 1) = .ok 0 := by
    rw [hp]; unfold ExtHdr.bytes; rw [he]; rfl
  have hw : walkExt true x.payload (turns x.payload) x.nxt 0 = .ok none := by
    unfold turns
    rw [walkExt]
    have h1 : isExtensionHeader x.nxt = true := (isExt_iff _).2 (by unfold IsExt; rcases hn with h | h | h <;> simp [h])
    have h2 : (true && decide (x.nxt = 44)) = false := by rcases hn with h | h | h <;> rw [h] <;> decide
    have h3 : inBounds 0 2 x.payload.length = true := by rw [inBounds_iff]; omega
    simp only [h1, h2, h3, Bool.not_true, Bool.false_eq_true, if_false, r0, r1, Res.ok_bind, if_true]
  rw [getHashKeyIpv6_eq ue hx hne, hw]
  rfl

theorem extLong (ue : Nat) {x : V6} {e : ExtHdr} {l : L4} (hx : x.WF) (he : e.WF) (hlong : 14 ≤ e.body.length)
    (hn : x.nxt = 0 ∨ x.nxt = 43 ∨ x.nxt = 60) (hpr : e.nxt = 6 ∨ e.nxt = 132) (hp : x.payload = e.bytes ++ l.bytes)
    {a b c d : UInt8} {more : List UInt8} (htail : e.body.drop (e.body.length - 8) = a :: b :: c :: d :: more) :
    getHashKeyIpv6 ue x.bytes = .ok { rc := 0, key := flowKey x.src x.dst e.nxt (a, b) (c, d), fragid := none } := by
  have hne : x.payload ≠ [] := by rw [hp]; simp [ExtHdr.bytes]
  have hel : e.bytes.length = e.body.length + 2 := by simp [ExtHdr.bytes]
  have hlen : x.payload.length = e.body.length + 2 + l.bytes.length := by rw [hp, List.length_append, hel]
  have r0 : rd x.payload 0 = .ok e.nxt := by rw [hp]; rfl
  have r1 : rd x.payload (0 + 1) = .ok (UInt8.ofNat ((e.body.length + 2) / 8 - 1)) := by
    rw [hp]; rfl
  have hf := ext_facts he
  have hmod := he.1
  have hports : HasPorts e.nxt := by unfold HasPorts; rcases hpr with h | h <;> simp [h]
  have hl0 : UInt8.ofNat ((e.body.length + 2) / 8 - 1) ≠ 0 := by
    intro h; have := congrArg UInt8.toNat h; rw [hf] at this; simp at this; omega
  have hw : walkExt true x.payload (turns x.payload) x.nxt 0 = .ok (some (e.nxt, e.body.length - 6)) := by
    unfold turns
    rw [walkExt]
    have h1 : isExtensionHeader x.nxt = true := (isExt_iff _).2 (by unfold IsExt; rcases hn with h | h | h <;> simp [h])
    have h2 : (true && decide (x.nxt = 44)) = false := by rcases hn with h | h | h <;> rw [h] <;> decide
    have h3 : inBounds 0 2 x.payload.length = true := by rw [inBounds_iff]; omega
    simp only [h1, h2, h3, Bool.not_true, Bool.false_eq_true, if_false, r0, r1, Res.ok_bind, hl0, hf]
    have hext : isExtensionHeader e.nxt = false := by
      cases hb : isExtensionHeader e.nxt
      · rfl
      · exact absurd ((isExt_iff _).1 hb) hports.ne.2.2.2
    rw [walkExt]
    simp only [hext, Bool.not_false, if_true]
    congr 3
    omega
  have hne' := hports.ne
  have hhp := (hasPorts_iff e.nxt).2 hports
  -- the last 8 bytes of the header
  have hsplit : x.payload = ([e.nxt, UInt8.ofNat ((e.body.length + 2) / 8 - 1)] ++ e.body.take (e.body.length - 8))
      ++ ((a :: b :: c :: d :: more) ++ l.bytes) := by
    rw [hp, ← htail]
    unfold ExtHdr.bytes
    simp only [List.append_assoc]
    rw [← List.append_assoc (e.body.take _), List.take_append_drop]
  have hplen : ([e.nxt, UInt8.ofNat ((e.body.length + 2) / 8 - 1)] ++ e.body.take (e.body.length - 8)).length = e.body.length - 6 := by
    simp; omega
  have htl : (a :: b :: c :: d :: more).length = 8 := by rw [← htail]; simp; omega
  rw [getHashKeyIpv6_eq ue hx hne, hw]
  simp only [Res.ok_bind, hne'.2.2.1, if_false]
  unfold ipv6Upper
  simp only [hne'.2.1, if_false, hhp, Bool.not_true, Bool.false_eq_true]
  have : e.body.length - 6 = ([e.nxt, UInt8.ofNat ((e.body.length + 2) / 8 - 1)] ++ e.body.take (e.body.length - 8)).length + 0 := by
    rw [hplen]; omega
  rw [this, hsplit, portsPart_append]
  have hL : L4.bytes { sport := (a, b), dport := (c, d), rest := more ++ l.bytes } = (a :: b :: c :: d :: more) ++ l.bytes := rfl
  rw [← hL, ports_plain ue (by unfold L4.WF; simp at htl ⊢; omega) e.nxt false _ _ _
    (by rintro ⟨_, h17, _⟩; rcases hpr with h | h <;> rw [h] at h17 <;> revert h17 <;> decide)]
  rfl

/-- The first IPv6 fragment: the "ports" are bytes of the fragment header. -/
theorem v6_first_ports (ue : Nat) {x : V6} {f : FragHdr} {rest : List UInt8} (hx : x.WF) (hn : x.nxt = 44)
    (hp : x.payload = f.bytes ++ rest) (hf : f.offset = 0) (hres : f.reserved = 0) (hpr : HasPorts f.nxt)
    (hue : ¬ (ue ≠ 0 ∧ f.nxt = 17 ∧ portNum f.offlg = ue)) :
    getHashKeyIpv6 ue x.bytes = .ok
      { rc := 1, key := flowKey x.src x.dst f.nxt (f.nxt, 0) f.offlg, fragid := some (f.id0, f.id1) } := by
  have hhp := (hasPorts_iff f.nxt).2 hpr
  obtain ⟨pre, hpre, hsplit⟩ := V6.split hx
  have h40 : x.bytes[40]? = some f.nxt := by
    rw [hsplit, List.getElem?_append_right (by omega), hpre, hp]; rfl
  have h41 : x.bytes[40 + 1]? = some 0 := by
    rw [hsplit, List.getElem?_append_right (by omega), hpre, hp, ← hres]; rfl
  rw [v6_frag_eq ue hx hn hp, if_pos hf, walkFrag_next _ _ _ _ _ (by unfold turns; omega) h40 h41 hpr.ne.2.2.2]
  simp only [Res.ok_bind]
  have : (40 : Nat) + (0 : UInt8).toNat * 8 = pre.length + 0 := by rw [hpre]; rfl
  rw [this, hsplit, ipv6Upper_append]
  unfold ipv6Upper
  simp only [hpr.ne.2.1, if_false, hhp, Bool.not_true, Bool.false_eq_true, if_true, hp]
  have hL : L4.bytes { sport := (f.nxt, f.reserved), dport := f.offlg, rest := [f.id0.1, f.id0.2, f.id1.1, f.id1.2] ++ rest } = f.bytes ++ rest := rfl
  rw [← hL, ports_plain ue (by unfold L4.WF; simp) f.nxt false _ _ _ (by simpa using hue), hres]
  rfl

end Nfqlb
