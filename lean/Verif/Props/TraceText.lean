import Verif.Spec.TraceText
import Verif.Proof.Ntop
import Verif.Proof.PacketIcmp
import Verif.Props.Trace

/-! C97: what trace flows tell about a packet. -/

set_option autoImplicit false

namespace Nfqlb.Props

open Nfqlb Nfqlb.Spec Nfqlb.Spec.TT Nfqlb.FlowLb

theorem protostr_text (p : UInt8) : ProtoText (Trace.protostr p.toNat) p := by
  unfold Trace.protostr
  have key : ∀ q : UInt8, p.toNat = q.toNat → p = q := fun q h => UInt8.toNat_inj.1 h
  by_cases h1 : p.toNat = 6
  · rw [if_pos h1, key 6 h1]; exact .inl (by decide)
  rw [if_neg h1]
  by_cases h2 : p.toNat = 17
  · rw [if_pos h2, key 17 h2]; exact .inl (by decide)
  rw [if_neg h2]
  by_cases h3 : p.toNat = 132
  · rw [if_pos h3, key 132 h3]; exact .inl (by decide)
  rw [if_neg h3]
  by_cases h4 : p.toNat = 1
  · rw [if_pos h4, key 1 h4]; exact .inl (by decide)
  rw [if_neg h4]
  by_cases h5 : p.toNat = 58
  · rw [if_pos h5, key 58 h5]; exact .inl (by decide)
  rw [if_neg h5]
  right
  refine ⟨?_, rfl⟩
  intro n hn e
  unfold names at hn
  simp only [List.mem_cons, List.not_mem_nil, or_false] at hn
  rcases hn with rfl | rfl | rfl | rfl | rfl <;> subst e <;> contradiction

/-- The text for any packet that is no fragment and that a trace flow matches, in terms of what was parsed. -/
theorem shows_key (tr : Trace.Tr) (hs : tr.mask.testBit 6 = true) (conf : Conf) (env : Env) (st st' : St) (proto : Nat) (data : Packet) (a : LbAction) (t : List Char) (p : Parsed) (hp : getHashKey 0 proto data = .ok p)
    (h0 : 0 ≤ p.rc) (h4 : p.rc % 4 = 0) (n v : Nat) (hn : n ≠ 0) (hf : Flow.flowLookup tr.set p.key proto data 0 = .ok (n, v)) (h : Trace.pktHandle tr conf env st proto data = .ok (st', a, t))
    (b : UInt8) (hb : p.key.proto = (b, 0)) (hsrc : p.key.src.length = 16) (hdst : p.key.dst.length = 16) (icmp : List Char) (hi : Trace.printIcmp proto data = .ok icmp) :
    ∃ name, tr.names n = some name ∧ Shows t name icmp b data.length p.key.src p.key.dst (portNum p.key.sport) (portNum p.key.dport) := by
  obtain ⟨_, p', hp', _, h2⟩ := Trace.handle_facts h
  rw [hp] at hp'
  cases hp'
  have hfind : Trace.traceFind tr p.key proto data = .ok n := by
    unfold Trace.traceFind
    rw [if_pos (by exact hs), hf]; rfl
  obtain ⟨⟨v, t0, u, e1, e2⟩, _⟩ := h2 n hn h0 h4 hfind
  unfold Trace.traceMatch at e1
  rw [if_neg hn] at e1
  cases hm : tr.names n with
  | none => rw [hm] at e1; cases e1
  | some name =>
    rw [hm] at e1
    dsimp only at e1
    rw [hi, Res.ok_bind] at e1
    simp only [Res.pure_eq, Res.ok.injEq] at e1
    obtain ⟨x, x1, x2, x3⟩ := CText.ntop_text _ hsrc
    obtain ⟨y, y1, y2, y3⟩ := CText.ntop_text _ hdst
    have hpn : Flow.protoNum p.key = b.toNat := by unfold Flow.protoNum; rw [hb]; simp
    refine ⟨name, rfl, Trace.protostr b.toNat, _, _, (if b.toNat = 17 ∧ v ≠ 0 then "udpencap=".toList ++ CText.dec v ++ ['\n'] else []) ++ u, protostr_text b, ⟨x, x1, x2, x3⟩, ⟨y, y1, y2, y3⟩, ?_⟩
    rw [e2, ← e1, hpn]
    simp only [List.append_assoc]
    rfl

/-- The ICMP header of an IPv4 packet. -/
theorem printIcmp_v4 {x : V4} (hx : x.WF) {i : Icmp} (hpr : x.proto = 1) (hp : x.payload = i.bytes) : Trace.printIcmp 0x0800 x.bytes = .ok (icmp4 i) := by
  obtain ⟨pre, hl, he⟩ := V4.split x
  have hb : inBounds 0 20 x.bytes.length = true := by
    rw [inBounds_iff, V4.fixed_len, hp]; simp [Icmp.bytes]; omega
  have r0 : rd x.bytes 0 = .ok (UInt8.ofNat (4 * 16 + (5 + x.opts.length / 4))) := rfl
  have r9 : rd x.bytes 9 = .ok x.proto := rfl
  have hih : 4 * (5 + x.opts.length / 4) = pre.length := by
    have := hx.1; omega
  have q0 : rd x.bytes pre.length = .ok i.type := by rw [he, hp]; exact rd_append_right pre i.bytes 0
  have q1 : rd x.bytes (pre.length + 1) = .ok i.code := by rw [he, hp]; exact rd_append_right pre i.bytes 1
  have q4 : rd16 x.bytes (pre.length + 4) = .ok i.x0 := by rw [he, hp]; exact rd16_append_right pre i.bytes 4
  have q6 : rd16 x.bytes (pre.length + 6) = .ok i.x1 := by rw [he, hp]; exact rd16_append_right pre i.bytes 6
  unfold Trace.printIcmp
  rw [if_pos rfl]
  unfold Trace.printIcmp4
  simp only [hb, Bool.not_true, Bool.false_eq_true, if_false, r0, r9, Res.ok_bind, V4.ihl hx, hpr, ne_eq, not_true_eq_false, hih, q0, q1, q4, q6]
  rw [if_neg (by omega)]
  unfold icmp4
  by_cases h3 : i.type = 3
  · by_cases h34 : i.code = 4
    · rw [if_pos h3, if_pos h34, if_pos ⟨h3, h34⟩]; rfl
    · rw [if_pos h3, if_neg h34, if_neg (fun h => h34 h.2), if_pos h3]; rfl
  · have h34 : ¬ (i.type = 3 ∧ i.code = 4) := fun h => h3 h.1
    by_cases h8 : i.type = 8
    · simp only [if_neg h3, if_neg h34, if_pos h8]; rfl
    · simp only [if_neg h3, if_neg h34, if_neg h8]; rfl

/-- Packets that are not ICMP have no such line. -/
theorem printIcmp_v4_none {x : V4} (hx : x.WF) (hpr : x.proto ≠ 1) (hp : x.payload ≠ []) : Trace.printIcmp 0x0800 x.bytes = .ok [] := by
  have hb : inBounds 0 20 x.bytes.length = true := by
    have := List.length_pos_iff.2 hp
    rw [inBounds_iff, V4.fixed_len]; omega
  have r0 : rd x.bytes 0 = .ok (UInt8.ofNat (4 * 16 + (5 + x.opts.length / 4))) := rfl
  have r9 : rd x.bytes 9 = .ok x.proto := rfl
  unfold Trace.printIcmp
  rw [if_pos rfl]
  unfold Trace.printIcmp4
  simp only [hb, Bool.not_true, Bool.false_eq_true, if_false, r0, r9, Res.ok_bind, V4.ihl hx]
  rw [if_neg (by omega), if_pos hpr]

/-- The first header after the IPv6 header. -/
theorem walk_v6 {x : V6} (hn : ¬ IsExt x.nxt) : walkExt false x.bytes (turns x.bytes) x.nxt 40 = .ok (some (x.nxt, 40)) := by
  have he : isExtensionHeader x.nxt = false := by
    unfold IsExt at hn
    unfold isExtensionHeader
    simpa [and_assoc] using hn
  unfold turns walkExt
  simp only [he, Bool.not_false, if_true]

theorem printIcmp_v6 {x : V6} (hx : x.WF) {i : Icmp} (hpr : x.nxt = 58) (hp : x.payload = i.bytes) : Trace.printIcmp 0x86dd x.bytes = .ok (icmp6 i) := by
  obtain ⟨pre, hl, he⟩ := V6.split hx
  have hb : inBounds 0 40 x.bytes.length = true := by
    rw [inBounds_iff, V6.len hx, hp]; simp [Icmp.bytes]
  have hw := walk_v6 (x := x) (by rw [hpr]; unfold IsExt; decide)
  rw [hpr] at hw
  have q0 : rd x.bytes 40 = .ok i.type := by rw [he, hp, ← hl]; exact rd_append_right pre i.bytes 0
  have q1 : rd x.bytes (40 + 1) = .ok i.code := by rw [he, hp, ← hl]; exact rd_append_right pre i.bytes 1
  have q4 : rd16 x.bytes (40 + 4) = .ok i.x0 := by rw [he, hp, ← hl]; exact rd16_append_right pre i.bytes 4
  have q6 : rd16 x.bytes (40 + 6) = .ok i.x1 := by rw [he, hp, ← hl]; exact rd16_append_right pre i.bytes 6
  unfold Trace.printIcmp
  rw [if_neg (by decide), if_pos rfl]
  unfold Trace.printIcmp6
  simp only [hb, Bool.not_true, Bool.false_eq_true, if_false, V6.rd_nxt hx, Res.ok_bind, hpr, hw, ne_eq, not_true_eq_false, q0, q1, q4, q6]
  unfold icmp6
  by_cases h2 : i.type = 2
  · simp only [if_pos h2]; rfl
  · by_cases h8 : i.type = 128
    · simp only [if_neg h2, if_pos h8]; rfl
    · simp only [if_neg h2, if_neg h8]; rfl

theorem printIcmp_v6_none {x : V6} (hx : x.WF) (hn : ¬ IsExt x.nxt) (hpr : x.nxt ≠ 58) (hp : x.payload ≠ []) : Trace.printIcmp 0x86dd x.bytes = .ok [] := by
  have hb : inBounds 0 40 x.bytes.length = true := by
    have := List.length_pos_iff.2 hp
    rw [inBounds_iff, V6.len hx]; omega
  unfold Trace.printIcmp
  rw [if_neg (by decide), if_pos rfl]
  unfold Trace.printIcmp6
  simp only [hb, Bool.not_true, Bool.false_eq_true, if_false, V6.rd_nxt hx, Res.ok_bind, walk_v6 hn]
  rw [if_pos hpr]

/-- Protocols without ports. -/
theorem v4_rest {x : V4} (hx : x.WF) (hu : x.Unfragmented) (hpr : ¬ HasPorts x.proto) (h1 : x.proto ≠ 1) (hp : x.payload ≠ []) :
    getHashKey 0 0x0800 x.bytes = .ok { rc := 32, key := flowKey x.src.mapped x.dst.mapped x.proto (0, 0) (0, 0), fragid := none } := by
  have h0 := (V4.frag_facts x).1 hu
  have hh : hasPorts x.proto = false := by
    rw [← Bool.not_eq_true]; exact fun h => hpr ((hasPorts_iff _).1 h)
  refine (getHashKeyIpv4_eq 0 hx hp).trans ?_
  simp only [h0, ne_eq, not_true_eq_false, decide_false, Bool.false_and, Bool.false_eq_true, if_false, h1, hh, Bool.not_false, if_true]
  rfl

theorem v6_rest {x : V6} (hx : x.WF) (hpr : ¬ HasPorts x.nxt) (hn : ¬ IsExt x.nxt) (h1 : x.nxt ≠ 58) (hp : x.payload ≠ []) :
    getHashKey 0 0x86dd x.bytes = .ok { rc := 32, key := flowKey x.src x.dst x.nxt (0, 0) (0, 0), fragid := none } := by
  have hh : hasPorts x.nxt = false := by
    rw [← Bool.not_eq_true]; exact fun h => hpr ((hasPorts_iff _).1 h)
  have h44 : x.nxt ≠ 44 := by
    intro h; apply hn; rw [h]; unfold IsExt; decide
  refine (getHashKeyIpv6_eq 0 hx hp).trans ?_
  rw [walkExt_upper _ _ _ _ hn]
  simp only [Res.ok_bind, h44, if_false]
  unfold ipv6Upper
  simp only [h1, if_false, hh, Bool.not_false, if_true]
  rfl

theorem gk4 (d : Packet) : getHashKey 0 0x0800 d = getHashKeyIpv4 0 d := rfl
theorem gk6 (d : Packet) : getHashKey 0 0x86dd d = getHashKeyIpv6 0 d := rfl

/-! ### C97 -/

/-- `flows` is selected, the lookup among the trace flows finds `n` for a packet with this flow, and `t` is what the packet handler writes for the packet. -/
def Traced (tr : Trace.Tr) (conf : Conf) (env : Env) (st : St) (proto : Nat) (data : Packet) (key : Key) (n : Nat) (t : List Char) : Prop :=
  tr.mask.testBit 6 = true ∧ n ≠ 0 ∧ (∃ v, Flow.flowLookup tr.set key proto data 0 = .ok (n, v)) ∧ ∃ st' a, Trace.pktHandle tr conf env st proto data = .ok (st', a, t)

theorem traced_shows {tr : Trace.Tr} {conf : Conf} {env : Env} {st : St} {proto : Nat} {data : Packet} {key : Key} {n : Nat} {t : List Char} (h : Traced tr conf env st proto data key n t)
    {p : Parsed} (hp : getHashKey 0 proto data = .ok p) (hk : p.key = key) (hr : p.rc = 0 ∨ p.rc = 8 ∨ p.rc = 16 ∨ p.rc = 32) {b : UInt8} (hb : key.proto = (b, 0)) (hsrc : key.src.length = 16) (hdst : key.dst.length = 16)
    {icmp : List Char} (hi : Trace.printIcmp proto data = .ok icmp) :
    ∃ name, tr.names n = some name ∧ Shows t name icmp b data.length key.src key.dst (portNum key.sport) (portNum key.dport) := by
  subst hk
  obtain ⟨h1, h2, ⟨v, h3⟩, st', a, h5⟩ := h
  exact shows_key tr h1 conf env st st' proto data a t p hp (by rcases hr with h | h | h | h <;> rw [h] <;> decide) (by rcases hr with h | h | h | h <;> rw [h] <;> decide) n v h2 h3 h5 b hb hsrc hdst icmp hi

theorem zero_ports {tr : Trace.Tr} {n : Nat} {t icmp : List Char} {b : UInt8} {len : Nat} {src dst : List UInt8} (h : ∃ name, tr.names n = some name ∧ Shows t name icmp b len src dst (portNum (0, 0)) (portNum (0, 0))) :
    ∃ name, tr.names n = some name ∧ Shows t name icmp b len src dst 0 0 := by
  have hz : portNum (0, 0) = 0 := by decide
  rwa [hz] at h

/-- C97, IPv4 with TCP, UDP or SCTP: protocol, length, addresses and ports of the packet. -/
theorem C97_ipv4 (tr : Trace.Tr) (conf : Conf) (env : Env) (st : St) (x : V4) (l : L4) (hx : x.WF) (hl : l.WF) (hu : x.Unfragmented) (hpr : HasPorts x.proto) (hp : x.payload = l.bytes) (n : Nat) (t : List Char)
    (h : Traced tr conf env st 0x0800 x.bytes (flowKey x.src.mapped x.dst.mapped x.proto l.sport l.dport) n t) :
    ∃ name, tr.names n = some name ∧ Shows t name [] x.proto x.bytes.length x.src.mapped x.dst.mapped (portNum l.sport) (portNum l.dport) :=
  traced_shows h (C14_ipv4_five_tuple 0 x l hx hl hu hpr hp (.inl rfl)) rfl (.inl rfl) rfl rfl rfl (printIcmp_v4_none hx hpr.ne.1 (by rw [hp]; exact l.ne_nil))

/-- C97, IPv6 with TCP, UDP or SCTP (partial: without extension headers). -/
theorem C97_ipv6_partial (tr : Trace.Tr) (conf : Conf) (env : Env) (st : St) (x : V6) (l : L4) (hx : x.WF) (hl : l.WF) (hpr : HasPorts x.nxt) (hp : x.payload = l.bytes) (n : Nat) (t : List Char)
    (h : Traced tr conf env st 0x86dd x.bytes (flowKey x.src x.dst x.nxt l.sport l.dport) n t) :
    ∃ name, tr.names n = some name ∧ Shows t name [] x.nxt x.bytes.length x.src x.dst (portNum l.sport) (portNum l.dport) :=
  traced_shows h (C15_ipv6_five_tuple_partial 0 x l hx hl hpr hp (.inl rfl)) rfl (.inl rfl) rfl hx.2.1 hx.2.2 (printIcmp_v6_none hx hpr.ne.2.2.2 hpr.ne.2.1 (by rw [hp]; exact l.ne_nil))

/-- C97, ICMP messages other than errors: the message, and the addresses of the packet; ports are 0. The flow of an echo request has its identifier. -/
theorem C97_icmp (tr : Trace.Tr) (conf : Conf) (env : Env) (st : St) (x : V4) (i : Icmp) (hx : x.WF) (hu : x.Unfragmented) (hpr : x.proto = 1) (hp : x.payload = i.bytes)
    (ht : ¬ (i.type = 3 ∨ i.type = 4 ∨ i.type = 5 ∨ i.type = 11)) (n : Nat) (t : List Char)
    (h : Traced tr conf env st 0x0800 x.bytes { flowKey x.src.mapped x.dst.mapped 1 (0, 0) (0, 0) with ud := if i.type = 8 then i.x0 else (0, 0) } n t) :
    ∃ name, tr.names n = some name ∧ Shows t name (icmp4 i) 1 x.bytes.length x.src.mapped x.dst.mapped 0 0 := by
  simp only [not_or] at ht
  obtain ⟨h3, h4, h5, h11⟩ := ht
  by_cases h8 : i.type = 8
  · rw [if_pos h8] at h
    exact zero_ports (traced_shows h ((gk4 _).trans (v4_echo 0 hx hu hpr hp h8)) rfl (.inr (.inr (.inl rfl))) rfl rfl rfl (printIcmp_v4 hx hpr hp))
  · rw [if_neg h8] at h
    exact zero_ports (traced_shows h ((gk4 _).trans (v4_other 0 hx hu hpr hp h3 h4 h5 h11 h8)) rfl (.inr (.inr (.inl rfl))) rfl rfl rfl (printIcmp_v4 hx hpr hp))

/-- The same for ICMPv6 (partial: without extension headers, and the errors 3 and 4 are shown with the addresses of the packet that has the error message). -/
theorem C97_icmp6_partial (tr : Trace.Tr) (conf : Conf) (env : Env) (st : St) (x : V6) (i : Icmp) (hx : x.WF) (hpr : x.nxt = 58) (hp : x.payload = i.bytes) (ht : ¬ (i.type = 1 ∨ i.type = 2)) (n : Nat) (t : List Char)
    (h : Traced tr conf env st 0x86dd x.bytes { flowKey x.src x.dst 58 (0, 0) (0, 0) with ud := if i.type = 128 then i.x0 else (0, 0) } n t) :
    ∃ name, tr.names n = some name ∧ Shows t name (icmp6 i) 58 x.bytes.length x.src x.dst 0 0 := by
  simp only [not_or] at ht
  obtain ⟨h1, h2⟩ := ht
  by_cases h8 : i.type = 128
  · rw [if_pos h8] at h
    exact zero_ports (traced_shows h ((gk6 _).trans (v6_echo 0 hx hpr hp h8)) rfl (.inr (.inr (.inl rfl))) rfl hx.2.1 hx.2.2 (printIcmp_v6 hx hpr hp))
  · rw [if_neg h8] at h
    exact zero_ports (traced_shows h ((gk6 _).trans (v6_other 0 hx hpr hp h1 h2 h8)) rfl (.inr (.inr (.inl rfl))) rfl hx.2.1 hx.2.2 (printIcmp_v6 hx hpr hp))

/-- C97, ICMP errors that quote a packet with ports: the message, the length of the packet with the message, and the flow that the quoted packet is an answer in: protocol of the quoted packet, its addresses and ports exchanged. -/
theorem C97_error (tr : Trace.Tr) (conf : Conf) (env : Env) (st : St) (x q : V4) (i : Icmp) (l : L4) (hx : x.WF) (hq : q.WF) (hl : l.WF) (hu : x.Unfragmented) (hpr : x.proto = 1) (hp : x.payload = i.bytes)
    (ht : i.type = 3 ∨ i.type = 4 ∨ i.type = 5 ∨ i.type = 11) (hi : i.rest = q.bytes) (hqp : q.payload = l.bytes) (hqr : HasPorts q.proto) (n : Nat) (t : List Char)
    (h : Traced tr conf env st 0x0800 x.bytes (flowKey q.dst.mapped q.src.mapped q.proto l.dport l.sport) n t) :
    ∃ name, tr.names n = some name ∧ Shows t name (icmp4 i) q.proto x.bytes.length q.dst.mapped q.src.mapped (portNum l.dport) (portNum l.sport) := by
  let lc : L4 := { l with sport := l.dport, dport := l.sport }
  let c : V4 := { q with src := q.dst, dst := q.src, flagsFrag := (0, 0), payload := lc.bytes }
  have hcu : c.Unfragmented := by
    have hf : c.flagsFrag = (0, 0) := rfl
    unfold V4.Unfragmented V4.fragOffset V4.moreFragments
    rw [hf]; decide
  obtain ⟨p, r, e1, e2, e3, e4, _⟩ := C18_ipv4_partial 0 x c q i l lc hx hq hq hl hl hu hpr hp ht hi hqp hcu rfl hqr ⟨rfl, rfl, rfl, rfl, rfl⟩ (.inl rfl)
  have e5 := C14_ipv4_five_tuple 0 c lc hq hl hcu hqr rfl (.inl rfl)
  rw [e5] at e2
  cases e2
  exact traced_shows h e1 e3 (.inr (.inl e4)) rfl rfl rfl (printIcmp_v4 hx hpr hp)

/-- The same for ICMPv6 (partial: without extension headers, for "destination unreachable" and "packet too big"). -/
theorem C97_error6_partial (tr : Trace.Tr) (conf : Conf) (env : Env) (st : St) (x q : V6) (i : Icmp) (l : L4) (hx : x.WF) (hq : q.WF) (hl : l.WF) (hpr : x.nxt = 58) (hp : x.payload = i.bytes)
    (ht : i.type = 1 ∨ i.type = 2) (hi : i.rest = q.bytes) (hqp : q.payload = l.bytes) (hqr : HasPorts q.nxt) (n : Nat) (t : List Char)
    (h : Traced tr conf env st 0x86dd x.bytes (flowKey q.dst q.src q.nxt l.dport l.sport) n t) :
    ∃ name, tr.names n = some name ∧ Shows t name (icmp6 i) q.nxt x.bytes.length q.dst q.src (portNum l.dport) (portNum l.sport) := by
  let lc : L4 := { l with sport := l.dport, dport := l.sport }
  let c : V6 := { q with src := q.dst, dst := q.src, payload := lc.bytes }
  have hc : c.WF := ⟨hq.1, hq.2.2, hq.2.1⟩
  obtain ⟨p, r, e1, e2, e3, e4, _⟩ := C18_ipv6_partial 0 x c q i l lc hx hc hq hl hl hpr hp ht hi hqp rfl hqr ⟨rfl, rfl, rfl, rfl, rfl⟩ (.inl rfl)
  have e5 := C15_ipv6_five_tuple_partial 0 c lc hc hl hqr rfl (.inl rfl)
  rw [e5] at e2
  cases e2
  exact traced_shows h e1 e3 (.inr (.inl e4)) rfl hq.2.2 hq.2.1 (printIcmp_v6 hx hpr hp)

/-- C97, all other protocols: the number of the protocol and the addresses; ports are 0. -/
theorem C97_others (tr : Trace.Tr) (conf : Conf) (env : Env) (st : St) (n : Nat) (t : List Char) :
    (∀ x : V4, x.WF → x.Unfragmented → ¬ HasPorts x.proto → x.proto ≠ 1 → x.payload ≠ [] → Traced tr conf env st 0x0800 x.bytes (flowKey x.src.mapped x.dst.mapped x.proto (0, 0) (0, 0)) n t →
      ∃ name, tr.names n = some name ∧ Shows t name [] x.proto x.bytes.length x.src.mapped x.dst.mapped 0 0) ∧
    ∀ x : V6, x.WF → ¬ HasPorts x.nxt → ¬ IsExt x.nxt → x.nxt ≠ 58 → x.payload ≠ [] → Traced tr conf env st 0x86dd x.bytes (flowKey x.src x.dst x.nxt (0, 0) (0, 0)) n t →
      ∃ name, tr.names n = some name ∧ Shows t name [] x.nxt x.bytes.length x.src x.dst 0 0 :=
  ⟨fun _ hx hu hpr h1 hp h => zero_ports (traced_shows h (v4_rest hx hu hpr h1 hp) rfl (.inr (.inr (.inr rfl))) rfl rfl rfl (printIcmp_v4_none hx h1 hp)),
   fun _ hx hpr hn h1 hp h => zero_ports (traced_shows h (v6_rest hx hpr hn h1 hp) rfl (.inr (.inr (.inr rfl))) rfl hx.2.1 hx.2.2 (printIcmp_v6_none hx hn h1 hp))⟩

/-! ### Examples -/

/-- A flow for TCP, and a trace flow for everything. -/
def ttSys : Res (Server.Sys × List Server.Out) := sRun [sSet "a" "lb1" "tcp", sConn "action:trace-set\nname:t\neoc:\n"]

/-- What is traced for a packet. -/
def ttText (proto : Nat) (data : Packet) : Res String := do
  let (s, _) ← ttSys
  let (_, _, t) ← Trace.pktHandle (Spec.Trc.trOf s.srv 64) fConf fEnv s.srv.st proto data
  return String.ofList t

def ospf4 : V4 := { tcp4 with proto := 89 }
def ping6v : V6 := { tcp6 with nxt := 58, payload := Icmp.bytes ⟨128, 0, (0, 0), (1, 2), (0, 9), []⟩ }
def ext6 : V6 := { tcp6 with nxt := 60, payload := ExtHdr.bytes ⟨6, [1, 12, 0, 0, 0, 0, 0, 7, 0, 9, 0, 0, 0, 0]⟩ ++ tcp6.payload }

def ext6s : V6 := { tcp6 with nxt := 60, payload := ExtHdr.bytes ⟨6, [1, 4, 0, 0, 0, 0]⟩ ++ tcp6.payload }

/-- All kinds of packets. -/
example : ttText 0x0800 tcp4.bytes = .ok "\nMatch for trace-flow: t\nproto=tcp, len=44, ::ffff:10.0.0.1 1024 -> ::ffff:192.168.1.7 80\ntarget=lb1, fwmark=5\n" ∧
    ttText 0x86dd tcp6.bytes = .ok "\nMatch for trace-flow: t\nproto=tcp, len=60, 2001:db8::1 1024 -> 2001:db8::2 80\ntarget=lb1, fwmark=7\n" ∧
    ttText 0x0800 ping8.bytes = .ok "\nMatch for trace-flow: t\nICMP_ECHO: id=258, seq=9\nproto=icmp, len=32, ::ffff:10.0.0.1 0 -> ::ffff:192.168.1.7 0\nNO target, fwmark=78\n" ∧
    ttText 0x86dd ping6v.bytes = .ok "\nMatch for trace-flow: t\nICMP6_ECHO_REQUEST: id=258, seq=9\nproto=icmp6, len=48, 2001:db8::1 0 -> 2001:db8::2 0\nNO target, fwmark=78\n" ∧
    ttText 0x0800 err4.bytes = .ok "\nMatch for trace-flow: t\nICMP_DEST_UNREACH/FRAG_NEEDED: mtu=1300\nproto=tcp, len=56, ::ffff:10.0.0.1 1024 -> ::ffff:192.168.1.7 80\ntarget=lb1, fwmark=5\n" ∧
    ttText 0x86dd err6.bytes = .ok "\nMatch for trace-flow: t\nICMP6_PACKET_TOO_BIG: mtu=1300\nproto=tcp, len=96, 2001:db8::1 1024 -> 2001:db8::2 80\ntarget=lb1, fwmark=7\n" ∧
    ttText 0x0800 ospf4.bytes = .ok "\nMatch for trace-flow: t\nproto=89, len=44, ::ffff:10.0.0.1 0 -> ::ffff:192.168.1.7 0\nNO target, fwmark=78\n" := by
  refine ⟨?_, ?_, ?_, ?_, ?_, ?_, ?_⟩ <;> decide +kernel

/-- The hypothesis of the theorems holds for the first of these. -/
example : ∃ s os t n, ttSys = .ok (s, os) ∧ Traced (Spec.Trc.trOf s.srv 64) fConf fEnv s.srv.st 0x0800 tcp4.bytes (flowKey a1.mapped a2.mapped 6 (4, 0) (0, 80)) n t := by
  have h : (do
      let (s, _) ← ttSys
      let (n, _) ← Flow.flowLookup (Spec.Trc.trOf s.srv 64).set (flowKey a1.mapped a2.mapped 6 (4, 0) (0, 80)) 0x0800 tcp4.bytes 0
      let (_, _, t) ← Trace.pktHandle (Spec.Trc.trOf s.srv 64) fConf fEnv s.srv.st 0x0800 tcp4.bytes
      return (decide (n ≠ 0), decide (t ≠ []))) = Res.ok (true, true) := by decide +kernel
  obtain ⟨⟨s, os⟩, h1, h⟩ := Server.bind_ok h
  obtain ⟨⟨n, v⟩, h2, h⟩ := Server.bind_ok h
  obtain ⟨⟨st', a, t⟩, h3, h⟩ := Server.bind_ok h
  have h4 : (decide (n ≠ 0), decide (t ≠ [])) = (true, true) := Res.ok.inj h
  refine ⟨s, os, t, n, h1, by show (64 : Nat).testBit 6 = true; decide, ?_, ⟨v, h2⟩, st', a, h3⟩
  exact of_decide_eq_true (congrArg Prod.fst h4)

/-- C97 does not hold for packets with IPv6 extension headers: a TCP packet from port 1024 to port 80 is shown with two numbers of its destination options as ports, and one with a short header is not shown at all. The reason is that of C15. -/
theorem C97_violated :
    ttText 0x86dd ext6.bytes = .ok "\nMatch for trace-flow: t\nproto=tcp, len=76, 2001:db8::1 7 -> 2001:db8::2 9\ntarget=lb1, fwmark=5\n" ∧
    ttText 0x86dd ext6s.bytes = .ok "" := by
  refine ⟨?_, ?_⟩ <;> decide +kernel

end Nfqlb.Props
