import Verif.Proof.PacketIcmp

/-! Properties C10 and C12 to C19: hashing and parsing of packets. -/

set_option autoImplicit false

namespace Nfqlb.Props

open Nfqlb Nfqlb.Spec

/-! ### Packets used in the examples -/

def a1 : Addr4 := ⟨10, 0, 0, 1⟩
def a2 : Addr4 := ⟨192, 168, 1, 7⟩
/-- An IPv6 address. -/
def b1 : List UInt8 := [0x20, 1, 0xd, 0xb8, 0, 0, 0, 0, 0, 0, 0, 0, 0, 0, 0, 1]
def b2 : List UInt8 := [0x20, 1, 0xd, 0xb8, 0, 0, 0, 0, 0, 0, 0, 0, 0, 0, 0, 2]

/-- A TCP packet from 10.0.0.1:1024 to 192.168.1.7:80 with 4 bytes of options. -/
def tcp4 : V4 :=
  { tos := 0, totlen := (0, 44), ident := (1, 2), flagsFrag := (0x40, 0), ttl := 64, proto := 6, csum := (0, 0), src := a1, dst := a2,
    opts := [1, 1, 1, 0], payload := (L4.bytes ⟨(4, 0), (0, 80), [0, 0, 0, 1, 0, 0, 0, 0, 0x50, 2, 1, 0, 0, 0, 0, 0]⟩) }

/-- A TCP packet over IPv6. -/
def tcp6 : V6 :=
  { vtf := [0x60, 0, 0, 0], plen := (0, 20), nxt := 6, hlim := 64, src := b1, dst := b2,
    payload := (L4.bytes ⟨(4, 0), (0, 80), [0, 0, 0, 1, 0, 0, 0, 0, 0x50, 2, 1, 0, 0, 0, 0, 0]⟩) }

/-! ### C10 -/

/-- C10. With hash_mode 1 the hash of an SCTP key is a function of the two ports. -/
theorem C10_sctp_ports_only (k : Key) (h : k.proto = (132, 0)) :
    hashKey k 1 = Spec.djb2 [k.sport.1, k.sport.2, k.dport.1, k.dport.2] := by
  unfold hashKey; rw [if_pos ⟨h, rfl⟩, djb2_spec]

/-- C10. So all paths of a multi-homed association have the same hash, whatever the addresses. -/
theorem C10_multihomed (k k' : Key) (h : k.proto = (132, 0)) (h' : k'.proto = (132, 0)) (hs : k.sport = k'.sport)
    (hd : k.dport = k'.dport) : hashKey k 1 = hashKey k' 1 := by
  rw [C10_sctp_ports_only k h, C10_sctp_ports_only k' h', hs, hd]

/-- C10. In all other cases the hash is djb2 of the whole key: addresses, then the 8 bytes of the union. -/
theorem C10_whole_key (k : Key) (mode : Nat) (h : k.proto ≠ (132, 0) ∨ mode ≠ 1) :
    hashKey k mode = Spec.djb2 (k.src ++ k.dst ++
      [k.ud.1, k.ud.2, k.proto.1, k.proto.2, k.sport.1, k.sport.2, k.dport.1, k.dport.2]) := by
  unfold hashKey; rw [if_neg (by rintro ⟨h1, h2⟩; rcases h with h | h <;> contradiction), djb2_spec]; rfl

/-- C10. The whole key has 40 bytes. -/
theorem C10_key_size (k : Key) (hs : k.src.length = 16) (hd : k.dst.length = 16) : k.bytes.length = 40 := by
  simp [Key.bytes, Key.idBytes, hs, hd]

/-- C10. The lb-tier hash is a function of the two addresses. -/
theorem C10_tier (k : Key) : hashKeyAddresses k = Spec.djb2 (k.src ++ k.dst) := by
  unfold hashKeyAddresses; rw [djb2_spec]; rfl

example : (flowKey a1.mapped a2.mapped 132 (4, 0) (0, 80)).proto = (132, 0) ∧
    (flowKey b1 b2 132 (4, 0) (0, 80)).proto = (132, 0) ∧
    hashKey (flowKey a1.mapped a2.mapped 132 (4, 0) (0, 80)) 1 = hashKey (flowKey b1 b2 132 (4, 0) (0, 80)) 1 ∧
    hashKey (flowKey a1.mapped a2.mapped 132 (4, 0) (0, 80)) 0 ≠ hashKey (flowKey b1 b2 132 (4, 0) (0, 80)) 0 := by
  decide +kernel

example : (flowKey a1.mapped a2.mapped 6 (4, 0) (0, 80)).proto ≠ (132, 0) ∧ a1.mapped.length = 16 := by decide

/-! ### C12, C13 -/

/-- C12, IPv4 (partial: not for ICMP packets that end within 6 bytes after the IPv4 header). Parsing reads only inside the packet and returns. -/
theorem C12_ipv4_partial (ue : Nat) (d : Packet)
    (h : ∀ b0, d[0]? = some b0 → d[9]? = some 1 → 4 * (b0.toNat % 16) + 6 ≤ d.length) :
    ∃ p, getHashKey ue 0x0800 d = .ok p := by
  have : getHashKey ue 0x0800 d = getHashKeyIpv4 ue d := rfl
  rw [this]; exact ipv4_ok ue d h

example : (∀ b0, tcp4.bytes[0]? = some b0 → tcp4.bytes[9]? = some 1 → 4 * (b0.toNat % 16) + 6 ≤ tcp4.bytes.length) := by
  have h : tcp4.bytes[9]? ≠ some 1 := by decide +kernel
  intro b0 _ h1
  exact absurd h1 h

/-- C12, IPv6 (partial: not if an ICMPv6 header or a fragment header is cut short, or a first fragment continues with an
extension header). `t` is the upper-layer protocol or the fragment header the chain leads to. -/
theorem C12_ipv6_partial (ue : Nat) (d : Packet)
    (h : ∀ nxt t pos, d[6]? = some nxt → ChainEnd d nxt 40 t pos →
      (t = 58 → pos + 6 ≤ d.length) ∧
      (t = 44 → pos + 8 ≤ d.length ∧
        ∀ n r o0 o1, d[pos]? = some n → d[pos + 1]? = some r → d[pos + 2]? = some o0 → d[pos + 3]? = some o1 →
          (o0.toNat * 256 + o1.toNat) / 8 = 0 → ¬ IsExt n ∧ (n = 58 → pos + r.toNat * 8 + 6 ≤ d.length))) :
    ∃ p, getHashKey ue 0x86dd d = .ok p := by
  have : getHashKey ue 0x86dd d = getHashKeyIpv6 ue d := rfl
  rw [this]; exact ipv6_ok ue d h

example : ∀ nxt t pos, tcp6.bytes[6]? = some nxt → ChainEnd tcp6.bytes nxt 40 t pos →
      (t = 58 → pos + 6 ≤ tcp6.bytes.length) ∧
      (t = 44 → pos + 8 ≤ tcp6.bytes.length ∧
        ∀ n r o0 o1, tcp6.bytes[pos]? = some n → tcp6.bytes[pos + 1]? = some r → tcp6.bytes[pos + 2]? = some o0 → tcp6.bytes[pos + 3]? = some o1 →
          (o0.toNat * 256 + o1.toNat) / 8 = 0 → ¬ IsExt n ∧ (n = 58 → pos + r.toNat * 8 + 6 ≤ tcp6.bytes.length)) := by
  intro nxt t pos h1 h2
  have h6 : tcp6.bytes[6]? = some 6 := by decide +kernel
  rw [h6] at h1
  simp only [Option.some.injEq] at h1
  subst h1
  cases h2 with
  | upper _ => exact ⟨fun h => absurd h (by decide), fun h => absurd h (by decide)⟩
  | step hx _ _ _ _ _ _ => exact absurd hx (by unfold IsExt; decide)

/-- C12. Other ethertypes are not read at all. -/
theorem C12_other (ue proto : Nat) (d : Packet) (h4 : proto ≠ 0x0800) (h6 : proto ≠ 0x86dd) :
    getHashKey ue proto d = .ok Parsed.fail := by
  unfold getHashKey; rw [if_neg h4, if_neg h6]

example : (0x0806 : Nat) ≠ 0x0800 ∧ (0x0806 : Nat) ≠ 0x86dd := by decide

/-- C12 does not hold: an IPv4 packet of 21 bytes that says it is ICMP with a header of 60 bytes is read beyond its end. -/
theorem C12_violated_ipv4 (ue : Nat) :
    getHashKey ue 0x0800 [0x4f, 0, 0, 21, 0, 0, 0, 0, 64, 1, 0, 0, 10, 0, 0, 1, 10, 0, 0, 2, 0] = .ub := by
  simp [getHashKey, getHashKeyIpv4, inBounds, rd, rd16, rdN, ntohs]

/-- C12 does not hold: every unfragmented IPv4 packet with ICMP whose last byte is the type 8 (echo request) is read beyond its end. -/
theorem C12_violated_echo (ue : Nat) (x : V4) (hx : x.WF) (hu : x.Unfragmented) (hp : x.proto = 1) (hpl : x.payload = [8]) :
    getHashKey ue 0x0800 x.bytes = .ub := by
  have h0 := (V4.frag_facts x).1 hu
  have : getHashKey ue 0x0800 x.bytes = getHashKeyIpv4 ue x.bytes := rfl
  rw [this, getHashKeyIpv4_eq ue hx (by rw [hpl]; simp), hp, hpl]
  simp only [h0]
  rfl

example : ({ tcp4 with proto := 1, payload := [8] } : V4).WF ∧ ({ tcp4 with proto := 1, payload := [8] } : V4).Unfragmented := by
  unfold V4.WF V4.Unfragmented V4.fragOffset V4.moreFragments; decide

/-- C12 does not hold: an IPv6 packet with one byte of a fragment header is read beyond its end. -/
theorem C12_violated_ipv6 (ue : Nat) (x : V6) (b : UInt8) (hx : x.WF) (hn : x.nxt = 44) (hp : x.payload = [b]) :
    getHashKey ue 0x86dd x.bytes = .ub := by
  have : getHashKey ue 0x86dd x.bytes = getHashKeyIpv6 ue x.bytes := rfl
  rw [this, getHashKeyIpv6_eq ue hx (by rw [hp]; simp), hn, hp]
  rfl

example : ({ tcp6 with nxt := 44, payload := [6] } : V6).WF := by unfold V6.WF; decide

/-- C13, IPv4: parsing always returns (or reads outside the packet, see C12). -/
theorem C13_ipv4 (ue : Nat) (d : Packet) : getHashKey ue 0x0800 d ≠ .hang := ipv4_no_hang ue d

/-- C13, IPv6 (partial): the header loops end within `length + 2` turns unless a first fragment continues with an extension header. -/
theorem C13_ipv6_partial (ue : Nat) (d : Packet)
    (h : ∀ nxt pos n o0 o1, d[6]? = some nxt → ChainEnd d nxt 40 44 pos → d[pos]? = some n →
      d[pos + 2]? = some o0 → d[pos + 3]? = some o1 → (o0.toNat * 256 + o1.toNat) / 8 = 0 → ¬ IsExt n) :
    getHashKey ue 0x86dd d ≠ .hang := ipv6_no_hang ue d h

example : ∀ nxt pos n o0 o1, tcp6.bytes[6]? = some nxt → ChainEnd tcp6.bytes nxt 40 44 pos → tcp6.bytes[pos]? = some n →
      tcp6.bytes[pos + 2]? = some o0 → tcp6.bytes[pos + 3]? = some o1 → (o0.toNat * 256 + o1.toNat) / 8 = 0 → ¬ IsExt n := by
  intro nxt pos n o0 o1 h1 h2
  have h6 : tcp6.bytes[6]? = some 6 := by decide +kernel
  rw [h6] at h1
  simp only [Option.some.injEq] at h1
  subst h1
  cases h2 with
  | step hx _ _ _ _ _ _ => exact absurd hx (by unfold IsExt; decide)

/-- C13 does not hold: for a first fragment whose fragment header is followed by an extension header (RFC 8200 allows destination options there)
the loop over the headers does not end, however many turns it is given. -/
theorem C13_violated (ue : Nat) (x : V6) (f : FragHdr) (rest : List UInt8) (hx : x.WF) (hn : x.nxt = 44)
    (hp : x.payload = f.bytes ++ rest) (hf : f.offset = 0) (hres : f.reserved = 0) (hext : IsExt f.nxt) :
    getHashKey ue 0x86dd x.bytes = .hang ∧ ∀ turns, walkFrag x.bytes turns 44 40 = .hang := by
  obtain ⟨pre, hpre, hsplit⟩ := V6.split hx
  have h40 : x.bytes[40]? = some f.nxt := by
    rw [hsplit, List.getElem?_append_right (by omega), hpre, hp]; rfl
  have h41 : x.bytes[40 + 1]? = some 0 := by
    rw [hsplit, List.getElem?_append_right (by omega), hpre, hp, ← hres]; rfl
  have hh := walkFrag_hang x.bytes 40 f.nxt h40 h41 hext
  have h44 : IsExt 44 := by unfold IsExt; decide
  refine ⟨?_, fun n => hh n 44 h44⟩
  have : getHashKey ue 0x86dd x.bytes = getHashKeyIpv6 ue x.bytes := rfl
  rw [this, v6_frag_eq ue hx hn hp, if_pos hf, hh _ 44 h44]
  rfl

/-- A first fragment with destination options after the fragment header. -/
def hanging : V6 := { tcp6 with nxt := 44, payload := FragHdr.bytes ⟨60, 0, (0, 1), (1, 2), (3, 4)⟩ ++ [6, 0, 1, 4, 0, 0, 0, 0] ++ tcp6.payload }

example : hanging.WF ∧ hanging.nxt = 44 ∧ (⟨60, 0, (0, 1), (1, 2), (3, 4)⟩ : FragHdr).offset = 0 ∧ IsExt 60 := by
  unfold V6.WF FragHdr.offset IsExt; decide

/-! ### C14, C15 -/

/-- C14. Every unfragmented IPv4 packet with TCP, UDP or SCTP, except UDP to the configured encapsulation port (see C19). -/
theorem C14_ipv4_five_tuple (ue : Nat) (x : V4) (l : L4) (hx : x.WF) (hl : l.WF) (hu : x.Unfragmented) (hpr : HasPorts x.proto)
    (hp : x.payload = l.bytes) (hue : ue = 0 ∨ x.proto ≠ 17 ∨ portNum l.dport ≠ ue) :
    getHashKey ue 0x0800 x.bytes = .ok
      { rc := 0, key := flowKey x.src.mapped x.dst.mapped x.proto l.sport l.dport, fragid := none } := by
  refine (v4_ports ue hx hl hp hpr ?_).1 hu
  rintro ⟨h1, h2, h3⟩
  rcases hue with h | h | h <;> contradiction

example : tcp4.WF ∧ tcp4.Unfragmented ∧ HasPorts tcp4.proto ∧
    tcp4.payload = L4.bytes ⟨(4, 0), (0, 80), [0, 0, 0, 1, 0, 0, 0, 0, 0x50, 2, 1, 0, 0, 0, 0, 0]⟩ := by
  unfold V4.WF V4.Unfragmented V4.fragOffset V4.moreFragments HasPorts; decide

/-- C15 (partial: no extension headers). Every IPv6 packet with TCP, UDP or SCTP directly after the IPv6 header. -/
theorem C15_ipv6_five_tuple_partial (ue : Nat) (x : V6) (l : L4) (hx : x.WF) (hl : l.WF) (hpr : HasPorts x.nxt)
    (hp : x.payload = l.bytes) (hue : ue = 0 ∨ x.nxt ≠ 17 ∨ portNum l.dport ≠ ue) :
    getHashKey ue 0x86dd x.bytes = .ok { rc := 0, key := flowKey x.src x.dst x.nxt l.sport l.dport, fragid := none } := by
  refine v6_ports ue hx hl hp hpr ?_
  rintro ⟨h1, h2, h3⟩
  rcases hue with h | h | h <;> contradiction

example : tcp6.WF ∧ HasPorts tcp6.nxt := by unfold V6.WF HasPorts; decide

/-- C15 does not hold: every packet with an 8-byte hop-by-hop, routing or destination options header (the shortest and most common size;
its RFC 8200 length field is 0) is refused. -/
theorem C15_violated_short (ue : Nat) (x : V6) (e : ExtHdr) (rest : List UInt8) (hx : x.WF) (he : e.body.length = 6)
    (hn : x.nxt = 0 ∨ x.nxt = 43 ∨ x.nxt = 60) (hp : x.payload = e.bytes ++ rest) :
    ∃ p, getHashKey ue 0x86dd x.bytes = .ok p ∧ p.rc = -1 := ⟨_, ext8 ue hx he hn hp, rfl⟩

example : ({ tcp6 with nxt := 60, payload := ExtHdr.bytes ⟨6, [1, 4, 0, 0, 0, 0]⟩ ++ tcp6.payload } : V6).WF := by
  unfold V6.WF; decide

/-- C15 does not hold: with one longer extension header before TCP or SCTP the "ports" are taken from the last 8 bytes of that header. -/
theorem C15_violated_long (ue : Nat) (x : V6) (e : ExtHdr) (l : L4) (hx : x.WF) (he : e.WF) (hlong : 14 ≤ e.body.length)
    (hn : x.nxt = 0 ∨ x.nxt = 43 ∨ x.nxt = 60) (hpr : e.nxt = 6 ∨ e.nxt = 132) (hp : x.payload = e.bytes ++ l.bytes)
    (a b c d : UInt8) (more : List UInt8) (htail : e.body.drop (e.body.length - 8) = a :: b :: c :: d :: more) :
    getHashKey ue 0x86dd x.bytes = .ok { rc := 0, key := flowKey x.src x.dst e.nxt (a, b) (c, d), fragid := none } :=
  extLong ue hx he hlong hn hpr hp htail

example : (⟨6, [1, 12, 0, 0, 0, 0, 0, 0, 0, 0, 0, 0, 0, 0]⟩ : ExtHdr).WF ∧
    List.drop 6 [(1 : UInt8), 12, 0, 0, 0, 0, 0, 0, 0, 0, 0, 0, 0, 0] = 0 :: 0 :: 0 :: 0 :: [0, 0, 0, 0] := by
  unfold ExtHdr.WF; decide

/-! ### C16, C17 -/

/-- The key under which the handlers register a first fragment: the key with `id` set to the identification. -/
def registered (p : Parsed) : Option Key := p.fragid.map (fun id => p.key.setId id.1 id.2 (0, 0) (0, 0))

theorem registered_eq {p : Parsed} {src dst : List UInt8} {id : Raw16 × Raw16} (h1 : p.fragid = some id) (h2 : p.key.src = src)
    (h3 : p.key.dst = dst) : registered p = some (fragKey src dst id.1 id.2) := by
  unfold registered; rw [h1]; simp [Key.setId, fragKey, h2, h3]

/-- C16, IPv4. A first fragment with any contents, if not refused, is reported as first fragment and registered under (source, destination,
identification). -/
theorem C16_ipv4_first (ue : Nat) (x : V4) (hx : x.WF) (hp : x.payload ≠ []) (hf : x.FirstFragment) (p : Parsed)
    (h : getHashKey ue 0x0800 x.bytes = .ok p) (hrc : 0 ≤ p.rc) :
    p.rc % 4 = 1 ∧ registered p = some (fragKey x.src.mapped x.dst.mapped x.ident (0, 0)) := by
  obtain ⟨_, h1, h2, h3, h4⟩ := v4_first ue hx hp hf h hrc
  exact ⟨h1, registered_eq h2 h3 h4⟩

/-- C16, IPv4. A later fragment is looked up under the same kind of key. -/
theorem C16_ipv4_later (ue : Nat) (x : V4) (hx : x.WF) (hp : x.payload ≠ []) (hf : x.LaterFragment) :
    getHashKey ue 0x0800 x.bytes = .ok { rc := 2, key := fragKey x.src.mapped x.dst.mapped x.ident (0, 0), fragid := none } :=
  v4_later ue hx hp hf

/-- C16, IPv6 (partial: fragment header directly after the IPv6 header). First fragments. -/
theorem C16_ipv6_first_partial (ue : Nat) (x : V6) (f : FragHdr) (rest : List UInt8) (hx : x.WF) (hn : x.nxt = 44)
    (hp : x.payload = f.bytes ++ rest) (hf : f.offset = 0) (p : Parsed)
    (h : getHashKey ue 0x86dd x.bytes = .ok p) (hrc : 0 ≤ p.rc) :
    p.rc % 4 = 1 ∧ registered p = some (fragKey x.src x.dst f.id0 f.id1) := by
  obtain ⟨_, h1, h2, h3, h4⟩ := v6_first ue hx hn hp hf h hrc
  exact ⟨h1, registered_eq h2 h3 h4⟩

/-- C16, IPv6 (partial: fragment header directly after the IPv6 header). Later fragments. -/
theorem C16_ipv6_later_partial (ue : Nat) (x : V6) (f : FragHdr) (rest : List UInt8) (hx : x.WF) (hn : x.nxt = 44)
    (hp : x.payload = f.bytes ++ rest) (hf : f.offset ≠ 0) :
    getHashKey ue 0x86dd x.bytes = .ok { rc := 2, key := fragKey x.src x.dst f.id0 f.id1, fragid := none } := by
  have : getHashKey ue 0x86dd x.bytes = getHashKeyIpv6 ue x.bytes := rfl
  rw [this, v6_frag_eq ue hx hn hp, if_neg hf]

/-- C16. Different source, destination or identification means a different key. -/
theorem C16_injective (src dst src' dst' : List UInt8) (i j i' j' : Raw16) :
    fragKey src dst i j = fragKey src' dst' i' j' ↔ src = src' ∧ dst = dst' ∧ i = i' ∧ j = j' := by
  unfold fragKey
  constructor
  · intro h; injection h with h1 h2 h3 h4; exact ⟨h1, h2, h3, h4⟩
  · rintro ⟨rfl, rfl, rfl, rfl⟩; rfl

/-- C16. The IPv4-mapped addresses are different for different IPv4 addresses. -/
theorem C16_mapped_injective (a b : Addr4) : a.mapped = b.mapped ↔ a = b := by
  constructor
  · intro h
    cases a; cases b
    simp [Addr4.mapped] at h
    simp [h]
  · rintro rfl; rfl

/-- First and later fragment of one IPv4 datagram. -/
def frag4a : V4 := { tcp4 with flagsFrag := (0x20, 0) }
def frag4b : V4 := { tcp4 with flagsFrag := (0, 3), payload := [1, 2, 3] }

example : frag4a.WF ∧ frag4a.FirstFragment ∧ frag4b.WF ∧ frag4b.LaterFragment ∧
    getHashKey 0 0x0800 frag4a.bytes = .ok { rc := 1, key := flowKey a1.mapped a2.mapped 6 (4, 0) (0, 80), fragid := some ((1, 2), (0, 0)) } := by
  unfold V4.WF V4.FirstFragment V4.LaterFragment V4.fragOffset V4.moreFragments
  decide +kernel

/-- First and later fragment of one IPv6 datagram. -/
def frag6a : V6 := { tcp6 with nxt := 44, payload := FragHdr.bytes ⟨6, 0, (0, 1), (1, 2), (3, 4)⟩ ++ tcp6.payload }
def frag6b : V6 := { tcp6 with nxt := 44, payload := FragHdr.bytes ⟨6, 0, (0, 16), (1, 2), (3, 4)⟩ ++ [7, 7] }

example : frag6a.WF ∧ frag6b.WF ∧ (⟨6, 0, (0, 1), (1, 2), (3, 4)⟩ : FragHdr).offset = 0 ∧ (⟨6, 0, (0, 16), (1, 2), (3, 4)⟩ : FragHdr).offset ≠ 0 ∧
    getHashKey 0 0x86dd frag6a.bytes = .ok { rc := 1, key := flowKey b1 b2 6 (6, 0) (0, 1), fragid := some ((1, 2), (3, 4)) } := by
  unfold V6.WF FragHdr.offset
  decide +kernel

/-- A later fragment with 16 bytes of destination options (one unknown option of 12 bytes) before the fragment header. -/
def opts6 (id1 : Raw16) : V6 :=
  { tcp6 with nxt := 60, payload := ExtHdr.bytes ⟨44, [0x1e, 12, 0, 0, 0, 0, 6, 0, 0, 8, 9, 9, 9, 9]⟩ ++
      (FragHdr.bytes ⟨6, 0, (0, 16), (1, 2), id1⟩ ++ [7, 7]) }

/-- C16 does not hold for IPv6 behind an extension header of 16 bytes: fragments of datagrams with different identification get the
same key (the option bytes are taken for the fragment header). -/
theorem C16_violated_ext (ue : Nat) (i j : Raw16) :
    getHashKey ue 0x86dd (opts6 i).bytes = getHashKey ue 0x86dd (opts6 j).bytes ∧
    getHashKey ue 0x86dd (opts6 i).bytes = .ok { rc := 2, key := fragKey b1 b2 (9, 9) (9, 9), fragid := none } := by
  have key : ∀ i, getHashKey ue 0x86dd (opts6 i).bytes = .ok { rc := 2, key := fragKey b1 b2 (9, 9) (9, 9), fragid := none } := by
    intro i
    have e : getHashKey ue 0x86dd (opts6 i).bytes = getHashKeyIpv6 ue (opts6 i).bytes := rfl
    have hwf : (opts6 i).WF := ⟨rfl, rfl, rfl⟩
    rw [e, getHashKeyIpv6_eq ue hwf (by simp [opts6, ExtHdr.bytes])]
    have hl : (opts6 i).payload.length = 26 := rfl
    have hn : (opts6 i).nxt = 60 := rfl
    have r0 : rd (opts6 i).payload 0 = .ok 44 := rfl
    have r1 : rd (opts6 i).payload (0 + 1) = .ok 1 := rfl
    have hb : inBounds 0 2 26 = true := by decide
    have h60 : isExtensionHeader 60 = true := by decide
    have h44 : isExtensionHeader 44 = true := by decide
    have h6044 : ¬ ((60 : UInt8) = 44) := by decide
    have h10 : ¬ ((1 : UInt8) = 0) := by decide
    have hw : walkExt true (opts6 i).payload (turns (opts6 i).payload) (opts6 i).nxt 0 = .ok (some (44, 8)) := by
      unfold turns
      rw [hn, walkExt]
      simp only [hl, hb, h60, h6044, h10, decide_false, Bool.and_false, Bool.not_true, Bool.false_eq_true, if_false, r0, r1, Res.ok_bind]
      rw [walkExt]
      simp only [h44, Bool.not_true, Bool.false_eq_true, if_false, decide_true, Bool.and_true, if_true]
      rfl
    have q2 : rd16 (opts6 i).payload (8 + 2) = .ok (0, 8) := rfl
    have q4 : rd16 (opts6 i).payload (8 + 4) = .ok (9, 9) := rfl
    have q6 : rd16 (opts6 i).payload (8 + 6) = .ok (9, 9) := rfl
    rw [hw]
    simp only [Res.ok_bind, if_true, q2, q4, q6]
    rw [if_neg (by decide)]
    rfl
  exact ⟨(key i).trans (key j).symm, key i⟩

/-- C17, IPv4. The key of a first fragment is the key of an unfragmented packet of the flow (see C14), and so are the hash and the target. -/
theorem C17_ipv4_first (ue : Nat) (x : V4) (l : L4) (hx : x.WF) (hl : l.WF) (hf : x.FirstFragment) (hpr : HasPorts x.proto)
    (hp : x.payload = l.bytes) (hue : ue = 0 ∨ x.proto ≠ 17 ∨ portNum l.dport ≠ ue) :
    getHashKey ue 0x0800 x.bytes = .ok
      { rc := 1, key := flowKey x.src.mapped x.dst.mapped x.proto l.sport l.dport, fragid := some (x.ident, (0, 0)) } := by
  refine (v4_ports ue hx hl hp hpr ?_).2 hf
  rintro ⟨h1, h2, h3⟩
  rcases hue with h | h | h <;> contradiction

/-- C17, IPv4, as a relation between two packets (partial: the IPv4 half of C17). -/
theorem C17_ipv4_same_key_partial (ue : Nat) (x y : V4) (l m : L4) (hx : x.WF) (hy : y.WF) (hl : l.WF) (hm : m.WF)
    (hf : x.FirstFragment) (hu : y.Unfragmented) (hpr : HasPorts x.proto) (hp : x.payload = l.bytes) (hq : y.payload = m.bytes)
    (hue : ue = 0 ∨ x.proto ≠ 17 ∨ portNum l.dport ≠ ue)
    (hsame : y.src = x.src ∧ y.dst = x.dst ∧ y.proto = x.proto ∧ m.sport = l.sport ∧ m.dport = l.dport) :
    ∃ p q, getHashKey ue 0x0800 x.bytes = .ok p ∧ getHashKey ue 0x0800 y.bytes = .ok q ∧ p.key = q.key ∧ p.rc = 1 ∧ q.rc = 0 := by
  obtain ⟨h1, h2, h3, h4, h5⟩ := hsame
  refine ⟨_, _, C17_ipv4_first ue x l hx hl hf hpr hp hue,
    C14_ipv4_five_tuple ue y m hy hm hu (by rw [h3]; exact hpr) hq (by rw [h3, h5]; exact hue), ?_, rfl, rfl⟩
  rw [h1, h2, h3, h4, h5]

example : frag4a.WF ∧ frag4a.FirstFragment ∧ HasPorts frag4a.proto ∧ frag4a.payload = tcp4.payload ∧ frag4a.src = tcp4.src := by
  unfold V4.WF V4.FirstFragment V4.fragOffset V4.moreFragments HasPorts; decide

/-- C17 does not hold for IPv6: the "ports" of a first fragment are bytes of its fragment header, whatever the payload is. -/
theorem C17_violated_ipv6 (ue : Nat) (x : V6) (f : FragHdr) (rest : List UInt8) (hx : x.WF) (hn : x.nxt = 44)
    (hp : x.payload = f.bytes ++ rest) (hf : f.offset = 0) (hres : f.reserved = 0) (hpr : HasPorts f.nxt)
    (hue : ue = 0 ∨ f.nxt ≠ 17 ∨ portNum f.offlg ≠ ue) :
    getHashKey ue 0x86dd x.bytes = .ok
      { rc := 1, key := flowKey x.src x.dst f.nxt (f.nxt, 0) f.offlg, fragid := some (f.id0, f.id1) } := by
  refine v6_first_ports ue hx hn hp hf hres hpr ?_
  rintro ⟨h1, h2, h3⟩
  rcases hue with h | h | h <;> contradiction

/-- C17 does not hold for IPv6: a first fragment and an unfragmented packet of one flow with different keys (and different hashes). -/
theorem C17_violated_ipv6_witness :
    ∃ p q, getHashKey 0 0x86dd frag6a.bytes = .ok p ∧ getHashKey 0 0x86dd tcp6.bytes = .ok q ∧
      p.key ≠ q.key ∧ hashKey p.key 0 ≠ hashKey q.key 0 :=
  ⟨{ rc := 1, key := flowKey b1 b2 6 (6, 0) (0, 1), fragid := some ((1, 2), (3, 4)) },
   { rc := 0, key := flowKey b1 b2 6 (4, 0) (0, 80), fragid := none }, by decide +kernel⟩

/-! ### C18 -/

/-- C18, IPv4. An ICMP error (destination unreachable, which includes "fragmentation needed", source quench, redirect, time exceeded) that quotes
a packet `q` sent back to the client has the key of the client's packets `c` in that flow. (Partial: not for SCTP in UDP, see below.) -/
theorem C18_ipv4_partial (ue : Nat) (x c q : V4) (i : Icmp) (lq lc : L4)
    (hx : x.WF) (hc : c.WF) (hq : q.WF) (hlq : lq.WF) (hlc : lc.WF)
    (hxu : x.Unfragmented) (hxp : x.proto = 1) (hxi : x.payload = i.bytes)
    (ht : i.type = 3 ∨ i.type = 4 ∨ i.type = 5 ∨ i.type = 11) (hiq : i.rest = q.bytes) (hqp : q.payload = lq.bytes)
    (hcu : c.Unfragmented) (hcp : c.payload = lc.bytes) (hpr : HasPorts c.proto)
    (hrev : q.src = c.dst ∧ q.dst = c.src ∧ q.proto = c.proto ∧ lq.sport = lc.dport ∧ lq.dport = lc.sport)
    (hue : ue = 0 ∨ c.proto ≠ 17 ∨ portNum lc.dport ≠ ue) :
    ∃ p r, getHashKey ue 0x0800 x.bytes = .ok p ∧ getHashKey ue 0x0800 c.bytes = .ok r ∧ p.key = r.key ∧ p.rc = 8 ∧ r.rc = 0 := by
  obtain ⟨h1, h2, h3, h4, h5⟩ := hrev
  have hC := C14_ipv4_five_tuple ue c lc hc hlc hcu hpr hcp hue
  have hX : getHashKey ue 0x0800 x.bytes = .ok { rc := 8, key := flowKey c.src.mapped c.dst.mapped c.proto lc.sport lc.dport, fragid := none } := by
    have e : getHashKey ue 0x0800 x.bytes = getHashKeyIpv4 ue x.bytes := rfl
    rw [e, v4_icmp ue hx hxu hxp hxi ht, hiq, innerV4_eq ue _ rfl hq (by rw [hqp]; exact lq.ne_nil)]
    have hhp : hasPorts q.proto = true := by rw [h3]; exact (hasPorts_iff _).2 hpr
    simp only [hhp, Bool.not_true, Bool.false_eq_true, if_false, hqp]
    rw [ports_plain ue hlq q.proto true _ _ _ (by
      rintro ⟨g1, g2, g3⟩
      rw [h3] at g2
      simp only [if_true, h4] at g3
      rcases hue with h | h | h <;> contradiction)]
    rw [h1, h2, h3, if_pos rfl, if_pos rfl, h4, h5]
    rfl
  exact ⟨_, _, hX, hC, rfl, rfl, rfl⟩

/-- An answer from 192.168.1.7:80 to 10.0.0.1:1024 and an ICMP error about it, sent by a router. -/
def answer4 : V4 := { tcp4 with src := a2, dst := a1, opts := [], payload := L4.bytes ⟨(0, 80), (4, 0), [0, 0, 0, 9]⟩ }
def err4 : V4 := { tcp4 with src := ⟨172, 16, 0, 1⟩, dst := a2, proto := 1, opts := [],
                             payload := Icmp.bytes ⟨3, 4, (0, 0), (0, 0), (5, 0x14), answer4.bytes⟩ }

example : err4.WF ∧ tcp4.WF ∧ answer4.WF ∧ err4.Unfragmented ∧ err4.proto = 1 ∧ answer4.src = tcp4.dst ∧ answer4.dst = tcp4.src ∧
    getHashKey 0 0x0800 err4.bytes = .ok { rc := 8, key := flowKey a1.mapped a2.mapped 6 (4, 0) (0, 80), fragid := none } := by
  unfold V4.WF V4.Unfragmented V4.fragOffset V4.moreFragments
  decide +kernel

/-- C18, IPv6: destination unreachable (1) and packet too big (2), quoting a packet without extension headers. -/
theorem C18_ipv6_partial (ue : Nat) (x c q : V6) (i : Icmp) (lq lc : L4)
    (hx : x.WF) (hc : c.WF) (hq : q.WF) (hlq : lq.WF) (hlc : lc.WF)
    (hxp : x.nxt = 58) (hxi : x.payload = i.bytes)
    (ht : i.type = 1 ∨ i.type = 2) (hiq : i.rest = q.bytes) (hqp : q.payload = lq.bytes)
    (hcp : c.payload = lc.bytes) (hpr : HasPorts c.nxt)
    (hrev : q.src = c.dst ∧ q.dst = c.src ∧ q.nxt = c.nxt ∧ lq.sport = lc.dport ∧ lq.dport = lc.sport)
    (hue : ue = 0 ∨ c.nxt ≠ 17 ∨ portNum lc.dport ≠ ue) :
    ∃ p r, getHashKey ue 0x86dd x.bytes = .ok p ∧ getHashKey ue 0x86dd c.bytes = .ok r ∧ p.key = r.key ∧ p.rc = 8 ∧ r.rc = 0 := by
  obtain ⟨h1, h2, h3, h4, h5⟩ := hrev
  have hC := C15_ipv6_five_tuple_partial ue c lc hc hlc hpr hcp hue
  have hX : getHashKey ue 0x86dd x.bytes = .ok { rc := 8, key := flowKey c.src c.dst c.nxt lc.sport lc.dport, fragid := none } := by
    have e : getHashKey ue 0x86dd x.bytes = getHashKeyIpv6 ue x.bytes := rfl
    rw [e, v6_icmp ue hx hxp hxi ht, hiq, innerV6_eq ue _ rfl hq (by rw [hqp]; exact lq.ne_nil) (by rw [h3]; exact hpr.ne.2.2.2)]
    have hhp : hasPorts q.nxt = true := by rw [h3]; exact (hasPorts_iff _).2 hpr
    simp only [hhp, Bool.not_true, Bool.false_eq_true, if_false, hqp]
    rw [ports_plain ue hlq q.nxt true _ _ _ (by
      rintro ⟨g1, g2, g3⟩
      rw [h3] at g2
      simp only [if_true, h4] at g3
      rcases hue with h | h | h <;> contradiction)]
    rw [h1, h2, h3, if_pos rfl, if_pos rfl, h4, h5]
    rfl
  exact ⟨_, _, hX, hC, rfl, rfl, rfl⟩

def answer6 : V6 := { tcp6 with src := b2, dst := b1, payload := L4.bytes ⟨(0, 80), (4, 0), [0, 0, 0, 9]⟩ }
def err6 : V6 := { tcp6 with nxt := 58, payload := Icmp.bytes ⟨2, 0, (0, 0), (0, 0), (5, 0x14), answer6.bytes⟩ }

example : err6.WF ∧ answer6.WF ∧ err6.nxt = 58 ∧ answer6.src = tcp6.dst ∧ answer6.dst = tcp6.src ∧
    getHashKey 0 0x86dd err6.bytes = .ok { rc := 8, key := flowKey b1 b2 6 (4, 0) (0, 80), fragid := none } := by
  unfold V6.WF
  decide +kernel

/-- C18, SCTP in UDP: the error follows the inner flow if it quotes the inner ports and one more byte. -/
theorem C18_ipv4_encap_partial (ue : Nat) (x q : V4) (i : Icmp) (u s : L4) (ulen ucsum : Raw16)
    (hx : x.WF) (hq : q.WF) (hs : s.WF)
    (hxu : x.Unfragmented) (hxp : x.proto = 1) (hxi : x.payload = i.bytes)
    (ht : i.type = 3 ∨ i.type = 4 ∨ i.type = 5 ∨ i.type = 11) (hiq : i.rest = q.bytes) (hqp : q.payload = u.bytes)
    (hu : u.rest = [ulen.1, ulen.2, ucsum.1, ucsum.2] ++ s.bytes) (hpr : q.proto = 17) (h0 : ue ≠ 0) (hue : portNum u.sport = ue) :
    getHashKey ue 0x0800 x.bytes = .ok { rc := 12, key := flowKey q.dst.mapped q.src.mapped 132 s.dport s.sport, fragid := none } := by
  have e : getHashKey ue 0x0800 x.bytes = getHashKeyIpv4 ue x.bytes := rfl
  rw [e, v4_icmp ue hx hxu hxp hxi ht, hiq, innerV4_eq ue _ rfl hq (by rw [hqp]; exact u.ne_nil)]
  have hhp : hasPorts 17 = true := by decide
  simp only [hpr, hhp, Bool.not_true, Bool.false_eq_true, if_false, hqp]
  rw [ports_encap ue hu hs true _ _ _ h0 (by simpa using hue)]
  rfl

/-- C18 does not hold for SCTP in UDP when the error quotes only the IP header and 8 bytes, the minimum of RFC 792: it is refused. -/
theorem C18_violated_encap (ue : Nat) (x q : V4) (i : Icmp) (u : L4)
    (hx : x.WF) (hq : q.WF) (hxu : x.Unfragmented) (hxp : x.proto = 1) (hxi : x.payload = i.bytes)
    (ht : i.type = 3 ∨ i.type = 4 ∨ i.type = 5 ∨ i.type = 11) (hiq : i.rest = q.bytes) (hqp : q.payload = u.bytes)
    (hu : u.rest.length = 4) (hpr : q.proto = 17) (h0 : ue ≠ 0) (hue : portNum u.sport = ue) :
    getHashKey ue 0x0800 x.bytes = .ok Parsed.fail := by
  have e : getHashKey ue 0x0800 x.bytes = getHashKeyIpv4 ue x.bytes := rfl
  rw [e, v4_icmp ue hx hxu hxp hxi ht, hiq, innerV4_eq ue _ rfl hq (by rw [hqp]; exact u.ne_nil)]
  have hhp : hasPorts 17 = true := by decide
  simp only [hpr, hhp, Bool.not_true, Bool.false_eq_true, if_false, hqp]
  unfold portsPart
  have hl : u.bytes.length = 8 := by simp [L4.bytes, hu]
  have r0 : rd16 u.bytes 0 = .ok u.sport := rfl
  have r1 : rd16 u.bytes (0 + 2) = .ok u.dport := rfl
  have hc : ue ≠ 0 ∧ True ∧ ntohs u.sport = ue := ⟨h0, trivial, hue⟩
  have hb1 : inBounds 0 4 8 = true := by decide
  have hb2 : inBounds (0 + 8) 4 8 = false := by decide
  simp only [hl, r0, r1, Res.ok_bind, if_true, hb1, hb2, Bool.not_true, Bool.not_false, Bool.false_eq_true, if_false]
  rw [if_pos hc]

/-- Quoted: an UDP packet from port 9899 of the target. -/
def answerU : V4 := { tcp4 with src := a2, dst := a1, proto := 17, opts := [], payload := L4.bytes ⟨(0x26, 0xab), (4, 0), [0, 20, 0, 0]⟩ }
def errU : V4 := { tcp4 with src := ⟨172, 16, 0, 1⟩, dst := a2, proto := 1, opts := [],
                             payload := Icmp.bytes ⟨3, 4, (0, 0), (0, 0), (5, 0x14), answerU.bytes⟩ }

example : errU.WF ∧ answerU.WF ∧ errU.Unfragmented ∧ portNum (0x26, 0xab) = 9899 := by
  unfold V4.WF V4.Unfragmented V4.fragOffset V4.moreFragments; decide

/-- C18 does not hold for the other errors: ICMPv6 time exceeded (3) and parameter problem (4), and ICMP parameter problem (12). What they quote is not looked at,
they have a key of their own with ICMP as protocol, which is the key of no packet of a flow with ports. -/
theorem C18_violated_types (ue : Nat) :
    (∀ (x : V6) (i : Icmp), x.WF → x.nxt = 58 → x.payload = i.bytes → i.type = 3 ∨ i.type = 4 →
      ∃ p, getHashKey ue 0x86dd x.bytes = .ok p ∧ p.rc = 16 ∧ p.key = flowKey x.src x.dst 58 (0, 0) (0, 0) ∧ ∀ s d pr sp dp, HasPorts pr → p.key ≠ flowKey s d pr sp dp) ∧
    ∀ (x : V4) (i : Icmp), x.WF → x.Unfragmented → x.proto = 1 → x.payload = i.bytes → i.type = 12 →
      ∃ p, getHashKey ue 0x0800 x.bytes = .ok p ∧ p.rc = 16 ∧ p.key = flowKey x.src.mapped x.dst.mapped 1 (0, 0) (0, 0) ∧ ∀ s d pr sp dp, HasPorts pr → p.key ≠ flowKey s d pr sp dp := by
  refine ⟨?_, ?_⟩
  · intro x i hx hn hp ht
    refine ⟨_, v6_other ue hx hn hp ?_ ?_ ?_, rfl, rfl, ?_⟩
    · rcases ht with h | h <;> rw [h] <;> decide
    · rcases ht with h | h <;> rw [h] <;> decide
    · rcases ht with h | h <;> rw [h] <;> decide
    · intro s d pr sp dp hpr h
      have : ((58 : UInt8), (0 : UInt8)) = (pr, 0) := congrArg Key.proto h
      cases this
      exact absurd hpr (by unfold HasPorts; decide)
  · intro x i hx hu hn hp ht
    refine ⟨_, v4_other ue hx hu hn hp ?_ ?_ ?_ ?_ ?_, rfl, rfl, ?_⟩
    · rw [ht]; decide
    · rw [ht]; decide
    · rw [ht]; decide
    · rw [ht]; decide
    · rw [ht]; decide
    · intro s d pr sp dp hpr h
      have : ((1 : UInt8), (0 : UInt8)) = (pr, 0) := congrArg Key.proto h
      cases this
      exact absurd hpr (by unfold HasPorts; decide)

/-- Time exceeded about a UDP packet, in IPv6 and as parameter problem in IPv4. -/
example : ({ tcp6 with nxt := 58, payload := Icmp.bytes ⟨3, 0, (0, 0), (0, 0), (0, 0), tcp6.bytes⟩ } : V6).WF ∧
    ({ errU with payload := Icmp.bytes ⟨12, 0, (0, 0), (0, 0), (0, 0), answerU.bytes⟩ } : V4).WF ∧
    ({ errU with payload := Icmp.bytes ⟨12, 0, (0, 0), (0, 0), (0, 0), answerU.bytes⟩ } : V4).Unfragmented := by
  unfold V6.WF V4.WF V4.Unfragmented V4.fragOffset V4.moreFragments; decide

/-! ### C19 -/

/-- C19, IPv4. UDP to the encapsulation port gets the key of the plain SCTP packet `y` with the same addresses and inner ports. -/
theorem C19_ipv4 (ue : Nat) (x y : V4) (u s t : L4) (ulen ucsum : Raw16) (hx : x.WF) (hy : y.WF) (hs : s.WF) (ht : t.WF)
    (hxu : x.Unfragmented) (hyu : y.Unfragmented)
    (hp : x.payload = u.bytes) (hr : u.rest = [ulen.1, ulen.2, ucsum.1, ucsum.2] ++ s.bytes) (hpr : x.proto = 17)
    (h0 : ue ≠ 0) (hue : portNum u.dport = ue)
    (hyp : y.proto = 132) (hq : y.payload = t.bytes)
    (hsame : y.src = x.src ∧ y.dst = x.dst ∧ t.sport = s.sport ∧ t.dport = s.dport) :
    ∃ p q, getHashKey ue 0x0800 x.bytes = .ok p ∧ getHashKey ue 0x0800 y.bytes = .ok q ∧ p.key = q.key ∧ p.rc = 4 ∧ q.rc = 0 := by
  obtain ⟨h1, h2, h3, h4⟩ := hsame
  have e : getHashKey ue 0x0800 x.bytes = getHashKeyIpv4 ue x.bytes := rfl
  have hn : (132 : UInt8) ≠ 17 := by decide
  refine ⟨_, _, by rw [e]; exact (v4_encap ue hx hs hp hr hpr h0 hue).1 hxu,
    C14_ipv4_five_tuple ue y t hy ht hyu (by rw [hyp]; exact Or.inr (Or.inr rfl)) hq (Or.inr (Or.inl (by rw [hyp]; exact hn))), ?_, rfl, rfl⟩
  rw [h1, h2, h3, h4, hyp]

/-- C19, IPv4, for a first fragment of the UDP packet, which has at least the UDP header and 8 bytes of SCTP in it. -/
theorem C19_ipv4_first (ue : Nat) (x y : V4) (u s t : L4) (ulen ucsum : Raw16) (hx : x.WF) (hy : y.WF) (hs : s.WF) (ht : t.WF)
    (hxf : x.FirstFragment) (hyu : y.Unfragmented)
    (hp : x.payload = u.bytes) (hr : u.rest = [ulen.1, ulen.2, ucsum.1, ucsum.2] ++ s.bytes) (hpr : x.proto = 17)
    (h0 : ue ≠ 0) (hue : portNum u.dport = ue)
    (hyp : y.proto = 132) (hq : y.payload = t.bytes)
    (hsame : y.src = x.src ∧ y.dst = x.dst ∧ t.sport = s.sport ∧ t.dport = s.dport) :
    ∃ p q, getHashKey ue 0x0800 x.bytes = .ok p ∧ getHashKey ue 0x0800 y.bytes = .ok q ∧ p.key = q.key ∧ p.rc = 5 ∧ q.rc = 0 := by
  obtain ⟨h1, h2, h3, h4⟩ := hsame
  have e : getHashKey ue 0x0800 x.bytes = getHashKeyIpv4 ue x.bytes := rfl
  have hn : (132 : UInt8) ≠ 17 := by decide
  refine ⟨_, _, by rw [e]; exact (v4_encap ue hx hs hp hr hpr h0 hue).2 hxf,
    C14_ipv4_five_tuple ue y t hy ht hyu (by rw [hyp]; exact Or.inr (Or.inr rfl)) hq (Or.inr (Or.inl (by rw [hyp]; exact hn))), ?_, rfl, rfl⟩
  rw [h1, h2, h3, h4, hyp]

/-- C19, IPv6 (partial: without extension headers and not fragmented, see `C19_violated`). -/
theorem C19_ipv6_partial (ue : Nat) (x y : V6) (u s t : L4) (ulen ucsum : Raw16) (hx : x.WF) (hy : y.WF) (hs : s.WF) (ht : t.WF)
    (hp : x.payload = u.bytes) (hr : u.rest = [ulen.1, ulen.2, ucsum.1, ucsum.2] ++ s.bytes) (hpr : x.nxt = 17)
    (h0 : ue ≠ 0) (hue : portNum u.dport = ue)
    (hyp : y.nxt = 132) (hq : y.payload = t.bytes)
    (hsame : y.src = x.src ∧ y.dst = x.dst ∧ t.sport = s.sport ∧ t.dport = s.dport) :
    ∃ p q, getHashKey ue 0x86dd x.bytes = .ok p ∧ getHashKey ue 0x86dd y.bytes = .ok q ∧ p.key = q.key ∧ p.rc = 4 ∧ q.rc = 0 := by
  obtain ⟨h1, h2, h3, h4⟩ := hsame
  have e : getHashKey ue 0x86dd x.bytes = getHashKeyIpv6 ue x.bytes := rfl
  have hn : (132 : UInt8) ≠ 17 := by decide
  refine ⟨_, _, by rw [e]; exact v6_encap ue hx hs hp hr hpr h0 hue,
    C15_ipv6_five_tuple_partial ue y t hy ht (by rw [hyp]; exact Or.inr (Or.inr rfl)) hq (Or.inr (Or.inl (by rw [hyp]; exact hn))), ?_, rfl, rfl⟩
  rw [h1, h2, h3, h4, hyp]

/-- C19. UDP to any other port is not treated as encapsulated: the key holds UDP and the UDP ports (IPv4 and IPv6). -/
theorem C19_other_port (ue : Nat) (l : L4) (hl : l.WF) (hue : portNum l.dport ≠ ue) :
    (∀ x : V4, x.WF → x.Unfragmented → x.proto = 17 → x.payload = l.bytes →
      getHashKey ue 0x0800 x.bytes = .ok { rc := 0, key := flowKey x.src.mapped x.dst.mapped 17 l.sport l.dport, fragid := none }) ∧
    (∀ x : V6, x.WF → x.nxt = 17 → x.payload = l.bytes →
      getHashKey ue 0x86dd x.bytes = .ok { rc := 0, key := flowKey x.src x.dst 17 l.sport l.dport, fragid := none }) := by
  constructor
  · intro x hx hu hp hpl
    rw [C14_ipv4_five_tuple ue x l hx hl hu (by rw [hp]; exact Or.inr (Or.inl rfl)) hpl (Or.inr (Or.inr hue)), hp]
  · intro x hx hp hpl
    rw [C15_ipv6_five_tuple_partial ue x l hx hl (by rw [hp]; exact Or.inr (Or.inl rfl)) hpl (Or.inr (Or.inr hue)), hp]

/-- SCTP 1024 -> 80 in UDP 40000 -> 9899. -/
def encap4 : V4 := { tcp4 with proto := 17, payload := L4.bytes ⟨(0x9c, 0x40), (0x26, 0xab), [0, 20, 0, 0] ++ L4.bytes ⟨(4, 0), (0, 80), [1, 2, 3, 4, 0, 0, 0, 0]⟩⟩ }
def encap6 : V6 := { tcp6 with nxt := 17, payload := L4.bytes ⟨(0x9c, 0x40), (0x26, 0xab), [0, 20, 0, 0] ++ L4.bytes ⟨(4, 0), (0, 80), [1, 2, 3, 4, 0, 0, 0, 0]⟩⟩ }

example : encap4.WF ∧ encap4.Unfragmented ∧ portNum (0x26, 0xab) = 9899 ∧
    getHashKey 9899 0x0800 encap4.bytes = .ok { rc := 4, key := flowKey a1.mapped a2.mapped 132 (4, 0) (0, 80), fragid := none } ∧
    getHashKey 9898 0x0800 encap4.bytes = .ok { rc := 0, key := flowKey a1.mapped a2.mapped 17 (0x9c, 0x40) (0x26, 0xab), fragid := none } ∧
    ({ encap4 with flagsFrag := (0x20, 0) } : V4).FirstFragment ∧ encap6.WF ∧
    getHashKey 9899 0x86dd encap6.bytes = .ok { rc := 4, key := flowKey b1 b2 132 (4, 0) (0, 80), fragid := none } := by
  unfold V4.WF V4.Unfragmented V4.FirstFragment V4.fragOffset V4.moreFragments V6.WF
  decide +kernel

/-- The packet of `encap6` with 16 bytes of destination options before the UDP header, and as first fragment. -/
def encap6opts : V6 := { tcp6 with nxt := 60, payload := ExtHdr.bytes ⟨17, [1, 12, 0, 0, 0, 0, 0, 0, 0, 0, 0, 0, 0, 0]⟩ ++ encap6.payload }
def encap6frag : V6 := { tcp6 with nxt := 44, payload := FragHdr.bytes ⟨17, 0, (0, 1), (1, 2), (3, 4)⟩ ++ encap6.payload }

/-- C19 does not hold for IPv6 packets with extension headers or fragment header: SCTP in UDP is hashed as UDP with other bytes of the headers as ports
(the reason is that of C15 and C17). -/
theorem C19_violated :
    getHashKey 9899 0x86dd encap6opts.bytes = .ok { rc := 0, key := flowKey b1 b2 17 (0, 0) (0, 0), fragid := none } ∧
    getHashKey 9899 0x86dd encap6frag.bytes = .ok { rc := 1, key := flowKey b1 b2 17 (17, 0) (0, 1), fragid := some ((1, 2), (3, 4)) } ∧
    encap6opts.WF ∧ encap6frag.WF := by
  unfold V6.WF
  decide +kernel

end Nfqlb.Props
