import Verif.Proof.PtonExact
import Verif.Proof.FlowUb
import Verif.Props.RangeSet
import Verif.Props.Match

/-! C38 to C41: flows. -/

set_option autoImplicit false

namespace Nfqlb.Props

open Nfqlb.Flow Nfqlb.Spec Nfqlb.Spec.FL Nfqlb.Spec.BM Nfqlb.Spec.RS

/-- A network in CIDR notation, with any IPv4 address, or any IPv6 address in any of its spellings, and any prefix length that the family allows, is accepted, and then contains exactly the addresses with
the same prefix; an IPv4 network contains only IPv4-mapped addresses. Missing for C38: see `C38_violated`. -/
theorem C38_prefix_partial (n : Net) (h : n.WF) : ∃ c, parseCidr n.text = .ok (some c) ∧ ∀ x : List UInt8, x.length = 16 → (addrInCidr c x = true ↔ n.Contains x) := parse_net n h

/-- A prefix length above what the family allows is refused, for IPv6 up to 2^32-1, for IPv4 up to 2^32-97. Missing for C38: larger numbers, see `C38_violated`. -/
theorem C38_refused_partial (a : Addr4) (b : Addr6) (hb : b.WF) (p : Nat) :
    (32 < p → p < 4294967296 - 96 → parseCidr (Net.v4 a p).text = .ok none) ∧ (128 < p → p < 4294967296 → parseCidr (Net.v6 b p).text = .ok none) := by
  constructor
  · intro h1 h2
    rw [parse_v4 a p (by omega), if_pos]
    unfold u32; omega
  · intro h1 h2
    rw [parse_v6 b hb p h2, if_pos h1]

/-- Nothing undefined happens for texts of fewer than 128 characters, and for texts without a colon. Missing for C38: see `C38_violated`. -/
theorem C38_total_partial (s : List Char) (h : ':' ∈ s → s.length < 128) : ∃ r, parseCidr s = .ok r := by
  rcases parseCidr_cases s with h1 | ⟨h1, _⟩
  · exact h1
  · exact absurd h h1

/-- No other texts are accepted than an address and a number: an IPv6 address as in RFC 4291; without a colon (and up to 120 characters) an IPv4 address with four decimal numbers up to 255, or one group of hexadecimal digits. Then
the network has the addresses that share the first `p` bits. Missing for C38: the single group should be refused, and so should some texts after `/` (`C38_violated`). -/
theorem C38_only_partial (arg : List Char) (c : Cidr) (h : parseCidr arg = .ok (some c)) :
    (':' ∈ arg → ∃ (a : Addr6) (rest : List Char) (p : Nat) (q : List Char), a.WF ∧ arg = a.text ++ '/' :: rest ∧ CText.scanU rest = some (p, q) ∧ p ≤ 128 ∧
      ∀ x : List UInt8, x.length = 16 → (addrInCidr c x = true ↔ SamePrefix p a.bytes x)) ∧
    (':' ∉ arg → arg.length ≤ 120 → ∃ (t rest : List Char) (p : Nat) (q : List Char), ((∃ a : Addr4, t = dotted a) ∨ GroupWF t) ∧ arg = t ++ '/' :: rest ∧ CText.scanU rest = some (p, q) ∧
      (p + 96) % 4294967296 ≤ 128 ∧
      ∀ a : Addr4, t = dotted a → ∀ x : List UInt8, x.length = 16 → (addrInCidr c x = true ↔ SamePrefix ((p + 96) % 4294967296) (Addr4.mapped a) x)) := by
  obtain ⟨s, t, rest, p, q, a, h1, h2, h3, h4, h5, h6, h7, h8⟩ := parseCidr_exact h
  refine ⟨fun hc => ?_, fun hc hl => ?_⟩
  · rw [if_pos hc] at h7 h8
    have hs : s = arg := by
      unfold cidrBuf at h1
      rw [if_pos hc] at h1
      split at h1
      · cases h1
      · cases h1; rfl
    exact ⟨a, rest, p, q, h5, by rw [← hs, h2, h6], h4, h7, h8⟩
  · rw [if_neg hc] at h7 h8
    have hs : s = "::ffff:".toList ++ arg := by
      unfold cidrBuf at h1
      rw [if_neg hc, List.take_of_length_le (by rw [List.length_append]; show 7 + arg.length ≤ 127; omega)] at h1
      cases h1; rfl
    have hd : ∃ u, t = "::ffff:".toList ++ u ∧ arg = u ++ '/' :: rest := by
      rw [h2] at hs
      rcases List.append_eq_append_iff.1 hs with ⟨u, e1, e2⟩ | ⟨u, e1, e2⟩
      · cases u with
        | nil => exact ⟨[], by rw [e1]; simp, e2.symm⟩
        | cons d u =>
          exfalso
          rw [List.cons_append, List.cons.injEq] at e2
          have hm : '/' ∈ "::ffff:".toList := by rw [e1, e2.1]; simp
          exact absurd hm (by decide)
      · exact ⟨u, e1, e2⟩
    obtain ⟨u, e1, e2⟩ := hd
    have hu : ':' ∉ u := fun hm => hc (by rw [e2]; simp [hm])
    refine ⟨u, rest, p, q, mapped_text h5 hu (by rw [← e1, h6]), e2, h4, h7, ?_⟩
    intro a4 ha x hx
    have hb : a.bytes = Addr4.mapped a4 := by
      have g1 := pton6_text a h5
      have g2 := pton6_text (mappedText a4) (mappedText_WF a4)
      rw [mappedText_text, ← ha, ← e1, h6, g1, mappedText_bytes] at g2
      exact Option.some.inj g2
    rw [h8 x hx, hb]
    rfl

example : (∃ c, parseCidr "10.1.2.3/20".toList = .ok (some c)) ∧ (∃ c, parseCidr "20Aa::7:192.0.2.1/90".toList = .ok (some c)) ∧ parseCidr "10.1.2.256/20".toList = .ok none ∧
    parseCidr "20Aaa::/90".toList = .ok none ∧ parseCidr "1::2::3/90".toList = .ok none := by
  refine ⟨⟨⟨maskAdr (Addr4.mapped ⟨10, 1, 2, 3⟩) (maskOf 116), maskOf 116⟩, by decide +kernel⟩, ⟨⟨maskAdr [0x20, 0xaa, 0, 0, 0, 0, 0, 0, 0, 0, 0, 7, 192, 0, 2, 1] (maskOf 90), maskOf 90⟩, by decide +kernel⟩, ?_⟩
  decide +kernel

/-- Networks for the theorems above: `10.1.2.3/20`, and `20Aa::7:192.0.2.1/90`. -/
example : (Net.v4 ⟨10, 1, 2, 3⟩ 20).WF ∧ (Net.v4 ⟨10, 1, 2, 3⟩ 20).text = "10.1.2.3/20".toList ∧
    (Net.v6 ⟨["20Aa".toList], true, ["7".toList], some ⟨192, 0, 2, 1⟩⟩ 90).WF ∧
    (Net.v6 ⟨["20Aa".toList], true, ["7".toList], some ⟨192, 0, 2, 1⟩⟩ 90).text = "20Aa::7:192.0.2.1/90".toList := by decide +kernel

example : (Net.v4 ⟨10, 1, 2, 3⟩ 20).Contains (Addr4.mapped ⟨10, 1, 15, 255⟩) ∧ ¬ (Net.v4 ⟨10, 1, 2, 3⟩ 20).Contains (Addr4.mapped ⟨10, 1, 16, 0⟩) := by
  constructor
  · exact ⟨_, rfl, by decide +kernel⟩
  · rintro ⟨y, h1, h2⟩
    have : y = ⟨10, 1, 16, 0⟩ := by
      obtain ⟨a, b, c, d⟩ := y
      simp only [Addr4.mapped, List.cons.injEq, and_true, true_and] at h1
      obtain ⟨rfl, rfl, rfl, rfl⟩ := h1
      rfl
    subst this
    exact absurd h2 (by decide +kernel)

example : (do let c ← parseCidr "10.1.2.3/20".toList; return c.map (fun c => (addrInCidr c (Addr4.mapped ⟨10, 1, 15, 255⟩), addrInCidr c (Addr4.mapped ⟨10, 1, 16, 0⟩)))) = Res.ok (some (true, false)) := by decide +kernel

/-- C38 as stated is false (/repo/src/lib/flow.c:148-204).
* `mask += 96` wraps at 32 bits: `10.0.0.0/4294967200` is accepted, and is `::/0`: every address is in it. So is the same with the prefix length written as -96.
* Text after the number is ignored: `10.0.0.0/8x` and `10.0.0.0/8.8` are accepted.
* Text without a colon need not be an IPv4 address: `12/24` is accepted as `::ffff:12`, prefix length 120.
* `strncpy` of 128 or more characters leaves no NUL; the following calls read behind the buffer. -/
theorem C38_violated :
    (∃ c, parseCidr "10.0.0.0/4294967200".toList = .ok (some c) ∧ ∀ x : List UInt8, x.length = 16 → addrInCidr c x = true) ∧
    parseCidr "10.0.0.0/-96".toList = parseCidr "::/0".toList ∧
    (parseCidr "10.0.0.0/8x".toList = parseCidr "10.0.0.0/8".toList ∧ parseCidr "10.0.0.0/8.8".toList = parseCidr "10.0.0.0/8".toList) ∧
    (parseCidr "12/24".toList = .ok (some ⟨[0, 0, 0, 0, 0, 0, 0, 0, 0, 0, 0, 0, 255, 255, 0, 0], [255, 255, 255, 255, 255, 255, 255, 255, 255, 255, 255, 255, 255, 255, 255, 0]⟩)) ∧
    (∀ s : List Char, ':' ∈ s → 128 ≤ s.length → parseCidr s = .ub) := by
  refine ⟨⟨⟨maskAdr (Addr4.mapped ⟨10, 0, 0, 0⟩) (maskOf 0), maskOf 0⟩, by decide +kernel, ?_⟩, by decide +kernel, ⟨by decide +kernel, by decide +kernel⟩, by decide +kernel, ?_⟩
  · intro x hx
    rw [inCidr_iff _ _ 0 (by omega) rfl hx]
    intro i hi; omega
  · intro s h1 h2
    unfold parseCidr cidrBuf
    rw [if_pos h1, if_pos h2]
    rfl

/-! ### C39 -/

theorem icmp_iff (k : Key) : ((protoNum k = 1 ∨ protoNum k = 58) ∧ k.idBytes ≠ List.replicate 8 0) ↔ IsIcmp k := by
  have h1 := protoNum_iff k 1; have h2 := protoNum_iff k 58
  rw [show (1 : UInt8).toNat = 1 from rfl] at h1
  rw [show (58 : UInt8).toNat = 58 from rfl] at h2
  unfold IsIcmp
  rw [h1, h2]
  constructor
  · exact fun h => h.1
  · intro h
    refine ⟨h, ?_⟩
    intro hz
    unfold Key.idBytes at hz
    rcases h with h | h <;> rw [h] at hz <;> simp [List.replicate] at hz

/-- For any flow, key and packet: the flow matches iff all of its criteria hold, or with promiscuous ping if the packet is ICMP and the criteria for addresses hold. -/
theorem C39_criteria (key : Key) (f : Flow.Flow) (ping : Bool) (l3 : Nat) (data : Packet) (v : Verdict) (h : flowMatch key f ping l3 data = .ok v) :
    v ≠ .no ↔ (addrPasses f.dsts key.dst = true ∧ addrPasses f.srcs key.src = true ∧ ((ping = true ∧ IsIcmp key) ∨ (protoPasses f.protocols key = true ∧ portPasses f.dports key.dport = .ok true ∧
      portPasses f.sports key.sport = .ok true ∧ matchPasses f.mtch l3 key data = .ok true))) := by
  unfold flowMatch at h
  by_cases h1 : addrPasses f.dsts key.dst = false
  · rw [if_pos h1] at h
    simp only [Res.ok.injEq] at h
    simp [← h, h1]
  · rw [if_neg h1] at h
    rw [Bool.not_eq_false] at h1
    by_cases h2 : addrPasses f.srcs key.src = false
    · rw [if_pos h2] at h
      simp only [Res.ok.injEq] at h
      simp [← h, h2]
    · rw [if_neg h2] at h
      rw [Bool.not_eq_false] at h2
      by_cases h3 : ping = true ∧ IsIcmp key
      · rw [if_pos ⟨h3.1, (icmp_iff key).2 h3.2⟩] at h
        simp only [Res.ok.injEq] at h
        simp [← h, h1, h2, h3]
      · rw [if_neg (fun hc => h3 ⟨hc.1, (icmp_iff key).1 hc.2⟩)] at h
        have h3' : (ping = true ∧ IsIcmp key) ↔ False := ⟨h3, False.elim⟩
        rw [h3']
        simp only [h1, h2, true_and, false_or]
        by_cases h4 : protoPasses f.protocols key = false
        · rw [if_pos h4] at h
          simp only [Res.ok.injEq] at h
          simp [← h, h4]
        · rw [if_neg h4] at h
          rw [Bool.not_eq_false] at h4
          rw [h4]
          cases h5 : portPasses f.dports key.dport with
          | ok b =>
            rw [h5] at h
            cases b with
            | false => simp only [Res.ok_bind, Bool.false_eq_true, if_false, Res.pure_eq, Res.ok.injEq] at h; simp [← h]
            | true =>
              simp only [Res.ok_bind, if_true] at h
              cases h6 : portPasses f.sports key.sport with
              | ok b =>
                rw [h6] at h
                cases b with
                | false => simp only [Res.ok_bind, Bool.false_eq_true, if_false, Res.pure_eq, Res.ok.injEq] at h; simp [← h]
                | true =>
                  simp only [Res.ok_bind, if_true] at h
                  cases h7 : matchPasses f.mtch l3 key data with
                  | ok b =>
                    rw [h7] at h
                    cases b with
                    | false => simp only [Res.ok_bind, Bool.false_eq_true, if_false, Res.pure_eq, Res.ok.injEq] at h; simp [← h]
                    | true => simp only [Res.ok_bind, if_true, Res.pure_eq, Res.ok.injEq] at h; simp [← h]
                  | die => rw [h7] at h; cases h
                  | ub => rw [h7] at h; cases h
                  | hang => rw [h7] at h; cases h
              | die => rw [h6] at h; cases h
              | ub => rw [h6] at h; cases h
              | hang => rw [h6] at h; cases h
          | die => rw [h5] at h; cases h
          | ub => rw [h5] at h; cases h
          | hang => rw [h5] at h; cases h

/-- The result of the byte match decides. -/
theorem match_with {f : Flow.Flow} {d : Def} (hi : Implements f d) (key : Key) (hs : key.src.length = 16) (hd : key.dst.length = 16) (ping : Bool) (l3 : Nat) (data : Packet) (hdr : Option (Proto × List UInt8))
    (hm : ∃ b, matchPasses f.mtch l3 key data = .ok b ∧ (b = true ↔ ∀ l, d.mtch = some l → ∀ p h, hdr = some (p, h) → AllHold l p.num h)) :
    ∃ v, flowMatch key f ping l3 data = .ok v ∧ (v ≠ .no ↔ d.Matches ping key hdr) := by
  obtain ⟨bm, m1, m2⟩ := hm
  obtain ⟨bd, d1, d2⟩ := hi.dports key.dport
  obtain ⟨bs, s1, s2⟩ := hi.sports key.sport
  have hok : ∃ v, flowMatch key f ping l3 data = .ok v := by
    unfold flowMatch
    rw [d1, s1, m1]
    simp only [Res.ok_bind, Res.pure_eq]
    cases bd <;> cases bs <;> cases bm <;> (repeat' split) <;> exact ⟨_, rfl⟩
  obtain ⟨v, hv⟩ := hok
  refine ⟨v, hv, ?_⟩
  rw [C39_criteria key f ping l3 data v hv, hi.dsts _ hd, hi.srcs _ hs, hi.protocols, d1, s1, m1]
  simp only [Res.ok.injEq]
  rw [d2, s2, m2]
  unfold Def.Matches Def.AddressMatch Def.OtherMatch
  constructor
  · rintro ⟨a, b, c⟩; exact ⟨⟨a, b⟩, c⟩
  · rintro ⟨⟨a, b⟩, c⟩; exact ⟨a, b, c⟩

theorem V4_bytes_ne (x : V4) : x.bytes ≠ [] := by unfold V4.bytes; simp
theorem V6_bytes_ne (x : V6) : x.bytes ≠ [] := by unfold V6.bytes; simp

/-- A flow with the criteria of a definition matches exactly the packets that this is for. -/
theorem C39_implements {f : Flow.Flow} {d : Def} (hi : Implements f d) (hd : d.WF) (ping : Bool) (key : Key) (hs : key.src.length = 16) (hdl : key.dst.length = 16) :
    (∀ l3, ∃ v, flowMatch key f ping l3 [] = .ok v ∧ (v ≠ .no ↔ d.Matches ping key none)) ∧
    (∀ l3 l4 data p hdr, HasHeader l3 l4 data p hdr → key.proto = (l4, 0) → ∃ v, flowMatch key f ping l3 data = .ok v ∧ (v ≠ .no ↔ d.Matches ping key (some (p, hdr)))) ∧
    (d.mtch = none → ∀ l3 data, ∃ v, flowMatch key f ping l3 data = .ok v ∧ (v ≠ .no ↔ d.Matches ping key none)) := by
  refine ⟨?_, ?_, ?_⟩
  · intro l3
    apply match_with hi key hs hdl
    refine ⟨true, ?_, by simp⟩
    unfold matchPasses
    split
    · rfl
    · rw [if_pos rfl]
  · intro l3 l4 data p hdr hh hk
    apply match_with hi key hs hdl
    rcases hi.mtch with ⟨h1, h2⟩ | ⟨es, m, h1, h2, h3⟩
    · refine ⟨true, by rw [h2]; rfl, by simp [h1]⟩
    · obtain ⟨m', k1, k2, k3, k4, k5⟩ := C46_as_written_partial es (hd.mtch es h1)
      rw [h3] at k1
      simp only [Res.ok.injEq, Option.some.injEq] at k1
      subst k1
      have hpn : protoNum key = l4.toNat := (protoNum_iff key l4).2 hk
      have hres : ∃ q, Match.matchMatches (some m) l3 (protoNum key) data = .ok (decide (AllHold es q hdr)) ∧ q = p.num ∧ data ≠ [] := by
        rw [hpn]
        cases hh with
        | v4 x p hdr rest h1 h2 h3 h4 h5 => exact ⟨_, k2 x _ _ rest _ h1 h2 h3 h4 h5 (by rintro ⟨rfl, h⟩; exact absurd h (by decide)), rfl, V4_bytes_ne x⟩
        | v6 x p hdr rest h1 h2 h3 h4 h5 => exact ⟨_, k3 x _ _ rest _ h1 h2 h3 h4 h5 (by rintro ⟨rfl, h⟩; exact absurd h (by decide)), rfl, V6_bytes_ne x⟩
        | encap4 x udp hdr rest h1 h2 h3 h4 h5 h6 => exact ⟨_, k4 x udp _ rest h1 h2 h3 h4 h5 h6, rfl, V4_bytes_ne x⟩
        | encap6 x udp hdr rest h1 h2 h3 h4 h5 h6 => exact ⟨_, k5 x udp _ rest h1 h2 h3 h4 h5 h6, rfl, V6_bytes_ne x⟩
      obtain ⟨q, hr, rfl, hne⟩ := hres
      refine ⟨_, by rw [h2]; simp only [matchPasses]; rw [if_neg hne]; exact hr, ?_⟩
      rw [decide_eq_true_eq, h1]
      constructor
      · rintro h l ⟨⟩ p' h' ⟨⟩; exact h
      · intro h; exact h es rfl _ _ rfl
  · intro hn l3 data
    apply match_with hi key hs hdl
    rcases hi.mtch with ⟨h1, h2⟩ | ⟨es, m, h1, h2, h3⟩
    · refine ⟨true, by rw [h2]; rfl, by simp [h1]⟩
    · rw [hn] at h1; cases h1

/-- From the definition in text to the packet: every definition as documented is accepted, and the flow then matches exactly the packets it is for. Byte matches are for packets with a complete transport header
(what else is possible with byte matches is in `C46_violated`), and are not looked at if there is no packet data (fragments). -/
theorem C39_as_written (rq : (Nat → Nat) → List Nat → List Nat) (hq : QSort rq) (d : Def) (hd : d.WF) :
    ∃ f, build rq d.args d.name = .ok (some f) ∧ f.name = d.name ∧ f.userRef = d.target ∧ f.udpencap = d.udpencap ∧
      ∀ (ping : Bool) (key : Key), key.src.length = 16 → key.dst.length = 16 →
        (∀ l3, ∃ v, flowMatch key f ping l3 [] = .ok v ∧ (v ≠ .no ↔ d.Matches ping key none)) ∧
        (∀ l3 l4 data p hdr, HasHeader l3 l4 data p hdr → key.proto = (l4, 0) → ∃ v, flowMatch key f ping l3 data = .ok v ∧ (v ≠ .no ↔ d.Matches ping key (some (p, hdr)))) ∧
        (d.mtch = none → ∀ l3 data, ∃ v, flowMatch key f ping l3 data = .ok v ∧ (v ≠ .no ↔ d.Matches ping key none)) := by
  obtain ⟨f, hb, hi⟩ := build_def hq d hd
  refine ⟨f, hb, hi.name, hi.target, hi.udpencap, ?_⟩
  exact fun ping key hs hdl => C39_implements hi hd ping key hs hdl

/-- A definition with all criteria. -/
def fDef : Def where
  name := "web".toList
  priority := 10
  target := 7
  protocols := some ["TCP".toList, "udp".toList]
  dports := some [(80, 80), (8000, 8080)]
  sports := some [(1024, 65535)]
  dsts := some [.v4 ⟨10, 0, 0, 0⟩ 24, .v6 ⟨["1000".toList], true, [], none⟩ 128]
  srcs := some [.v4 ⟨0, 0, 0, 0⟩ 0]
  mtch := some [mExpr1, mExpr2]
  udpencap := 0

example : fDef.WF := by
  refine ⟨by decide, ?_, ?_, ?_, ?_, ?_, ?_⟩
  · rintro l ⟨⟩ s hs
    simp only [List.mem_cons, List.not_mem_nil, or_false] at hs
    rcases hs with rfl | rfl
    · exact ⟨.tcp, by decide⟩
    · exact ⟨.udp, by decide⟩
  · rintro l ⟨⟩; decide +kernel
  · rintro l ⟨⟩; decide +kernel
  · rintro l ⟨⟩; decide +kernel
  · rintro l ⟨⟩; decide +kernel
  · rintro l ⟨⟩ e he
    simp only [List.mem_cons, List.not_mem_nil, or_false] at he
    rcases he with rfl | rfl
    · refine ⟨by decide, ⟨by decide, by decide, ?_, by decide, ?_⟩, ?_, by decide⟩
      · intro m hm; cases hm; decide
      · intro ds hd; cases hd
      · unfold Expr.InHeader; decide
    · refine ⟨by decide, ⟨by decide, by decide, ?_, by decide, ?_⟩, ?_, by decide⟩
      · intro m hm; cases hm
      · intro ds hd; cases hd; decide
      · unfold Expr.InHeader; decide

/-- The key of a packet from 192.0.2.1 to 10.0.0.9. -/
def fKey (proto : UInt8) (sport dport : Raw16) : Key :=
  { src := Addr4.mapped ⟨192, 0, 2, 1⟩, dst := Addr4.mapped ⟨10, 0, 0, 9⟩, ud := (0, 0), proto := (proto, 0), sport := sport, dport := dport }

example : (do
    let f ← build isort fDef.args fDef.name
    match f with
    | none => return []
    | some f => do
      let a ← flowMatch (fKey 17 (4, 0) (31, 64)) f false 0x0800 []
      let b ← flowMatch (fKey 17 (3, 255) (31, 64)) f false 0x0800 []
      let c ← flowMatch (fKey 132 (4, 0) (31, 64)) f false 0x0800 []
      let d ← flowMatch (fKey 1 (0, 0) (0, 0)) f true 0x0800 []
      let e ← flowMatch (fKey 17 (4, 0) (31, 64)) f false 0x0800 (mPkt [4, 0, 31, 64, 0, 9, 0, 0, 7]).bytes
      return [a, b, c, d, e]) = Res.ok [.yes, .no, .no, .ping, .no] := by decide +kernel

/-! ### C40 -/

/-- After any history of definitions and deletions, and whatever the order of flows with the same priority is, a lookup that gives a target gives that of a flow that matches, and no flow with a target
and a higher priority matches; it gives no target iff no flow with a target matches. If the flow matches otherwise than by promiscuous ping then its `udpencap` is given.
Missing for C40: histories with priorities so far apart that the difference overflows, see `C40_violated`; there `run` is not `ok`. -/
theorem C40_best_partial (rq : (Nat → Nat) → List Nat → List Nat) (hq : QSort rq) (fq : List Flow.Flow → List Flow.Flow) (hfq : Sorts fq) (ops : List Op) (set : FlowSet) (hr : run rq fq flowSetCreate ops = .ok set)
    (key : Key) (l3 : Nat) (data : Packet) (u t v : Nat) (hl : flowLookup set key l3 data u = .ok (t, v)) :
    (t ≠ 0 → ∃ f ∈ set.flows, f.userRef = t ∧ (flowMatch key f set.ping l3 data = .ok .ping ∨ (flowMatch key f set.ping l3 data = .ok .yes ∧ v = f.udpencap)) ∧
      ∀ g ∈ set.flows, g.userRef ≠ 0 → f.priority < g.priority → flowMatch key g set.ping l3 data = .ok .no) ∧
    (t = 0 → ∀ f ∈ set.flows, f.userRef ≠ 0 → flowMatch key f set.ping l3 data = .ok .no) := by
  have hs := run_ok hq hfq ops create_ok hr
  rcases lookup_spec set.flows hs.sorted hl with ⟨h1, h2⟩ | ⟨h1, h2⟩
  · exact ⟨fun h => absurd h1 h, fun _ => h2⟩
  · exact ⟨fun _ => h2, fun h => absurd h h1⟩

/-- Merge sort by descending priority is a possible `qsort`. -/
def fsort (l : List Flow.Flow) : List Flow.Flow := l.mergeSort (fun f g => decide (g.priority ≤ f.priority))

theorem fsort_ok : Sorts fsort := by
  intro l
  refine ⟨List.mergeSort_perm _ _, ?_⟩
  have := List.pairwise_mergeSort (le := fun f g : Flow.Flow => decide (g.priority ≤ f.priority)) (fun a b c h1 h2 => by simp only [decide_eq_true_eq] at *; omega)
    (fun a b => by simp only [Bool.or_eq_true, decide_eq_true_eq]; omega) l
  exact this.imp (by simp)

/-- Insertion sort: for examples that are computed. -/
def fisort : List Flow.Flow → List Flow.Flow
  | [] => []
  | a :: l => (fisort l).takeWhile (fun b => b.priority > a.priority) ++ a :: (fisort l).dropWhile (fun b => b.priority > a.priority)

theorem fisort_ok : Sorts fisort := by
  intro l
  induction l with
  | nil => exact ⟨List.Perm.refl _, List.Pairwise.nil⟩
  | cons a l ih =>
    refine ⟨(insert_perm _ _ _).trans (ih.1.cons a), ?_⟩
    exact insert_sorted (fun b a : Flow.Flow => decide (b.priority > a.priority)) (fun a b => b.priority ≤ a.priority) a (fun b h => by simp at h; omega) (fun b h => by simp at h; omega) (fun x y z h1 h2 => by omega) _ ih.2

/-- Arguments with only a name, a priority, a target and destination networks. -/
def fArgs (name : String) (priority : Int) (target : Nat) (dsts : List String) : Args where
  name := some name.toList
  priority := priority
  userRef := target
  protocols := none
  dports := none
  sports := none
  dsts := some (dsts.map String.toList)
  srcs := none
  mtch := none
  udpencap := 0

/-- A history with a refused definition, a redefinition and a deletion; the lookup finds the second of three flows. -/
example : (do
    let set ← run isort fisort flowSetCreate [.define (fArgs "a" 5 1 ["0.0.0.0/0"]), .define (fArgs "b" 9 2 ["10.0.0.0/24"]), .define (fArgs "b" 7 3 ["10.0.0.0/24"]), .define (fArgs "c" 9 4 ["10.0.0.9"]),
      .define (fArgs "d" 8 5 ["10.0.1.0/24"]), .define (fArgs "e" 20 6 ["::/0"]), .delete "e".toList]
    let r ← flowLookup set (fKey 6 (4, 0) (0, 80)) 0x0800 [] 77
    return (set.flows.map (fun f => (String.ofList f.name, f.priority)), r)) = Res.ok ([("d", 8), ("b", 7), ("a", 5)], (3, 0)) := by decide +kernel

/-- Which definitions are undefined after any history: those of a flow that could otherwise be made (or where reading the networks is undefined), such that the difference of two priorities, of the new flow and those with other names, overflows. -/
theorem C40_exact (rq : (Nat → Nat) → List Nat → List Nat) (hq : QSort rq) (fq : List Flow.Flow → List Flow.Flow) (hfq : Sorts fq) (ops : List Op) (set : FlowSet) (hr : run rq fq flowSetCreate ops = .ok set) (a : Args) :
    flowDefine rq fq set a = .ub ↔ ∃ name, a.name = some name ∧ name.length ≤ 1023 ∧
      (build rq a name = .ub ∨ (∃ f, build rq a name = .ok (some f)) ∧
        ∃ p ∈ a.priority :: (set.flows.filter (fun g => g.name ≠ name)).map (·.priority), ∃ q ∈ a.priority :: (set.flows.filter (fun g => g.name ≠ name)).map (·.priority), 2147483647 < p - q) := by
  have hs := run_ok hq hfq ops create_ok hr
  exact define_ub hq fq hs a

/-- For histories in which no two priorities are so far apart that their difference overflows, and with texts of networks of fewer than 128 characters, nothing undefined happens. -/
theorem C40_defined (rq : (Nat → Nat) → List Nat → List Nat) (hq : QSort rq) (fq : List Flow.Flow → List Flow.Flow) (hfq : Sorts fq) (ops : List Op)
    (hp : ∀ a b, Op.define a ∈ ops → Op.define b ∈ ops → a.priority - b.priority ≤ 2147483647)
    (h : ∀ a, Op.define a ∈ ops → (∀ l, a.dsts = some l → ∀ s ∈ l, ':' ∈ s → s.length < 128) ∧ (∀ l, a.srcs = some l → ∀ s ∈ l, ':' ∈ s → s.length < 128)) :
    ∃ set, run rq fq flowSetCreate ops = .ok set := by
  suffices ∀ (os : List Op) (st : FlowSet), SetOK st → (∀ f ∈ st.flows, ∃ a, Op.define a ∈ ops ∧ f.priority = a.priority) → (∀ o ∈ os, o ∈ ops) →
      ∃ set, run rq fq st os = .ok set from this ops flowSetCreate create_ok (by simp [flowSetCreate]) (fun _ h => h)
  intro os
  induction os with
  | nil => intro st _ _ _; exact ⟨st, rfl⟩
  | cons o os ih =>
    intro st hs hm hsub
    have hstep : ∃ s2, step rq fq st o = .ok s2 ∧ ∀ f ∈ s2.flows, ∃ a, Op.define a ∈ ops ∧ f.priority = a.priority := by
      cases o with
      | define a =>
        have ha : Op.define a ∈ ops := hsub _ (by simp)
        obtain ⟨a3, a4⟩ := h a ha
        simp only [step]
        rcases define_cases hq hfq hs a with e | ⟨s, f, n, e, _, _, _, _, e2, _, _, k, _⟩ | ⟨e, _⟩
        · rw [e]; exact ⟨_, rfl, hm⟩
        · rw [e]
          refine ⟨_, rfl, ?_⟩
          intro g hg
          have := (k.2.mem_iff).1 hg
          simp only [List.mem_cons, List.mem_filter] at this
          rcases this with rfl | hh
          · exact ⟨a, ha, e2⟩
          · exact hm g hh.1
        · exfalso
          obtain ⟨name, _, _, hb | ⟨_, p, hp1, q, hq1, hpq⟩⟩ := (define_ub hq fq hs a).1 e
          · rcases build_cases hq a name with ⟨r, e, _⟩ | ⟨hn, _⟩
            · rw [e] at hb; cases hb
            · exact hn ⟨a3, a4⟩
          · have key : ∀ p ∈ a.priority :: (st.flows.filter (fun g => g.name ≠ name)).map (·.priority), ∃ b, Op.define b ∈ ops ∧ p = b.priority := by
              intro p hp
              rw [List.mem_cons, List.mem_map] at hp
              rcases hp with rfl | ⟨g, hg, rfl⟩
              · exact ⟨a, ha, rfl⟩
              · exact hm g (List.mem_filter.1 hg).1
            obtain ⟨b, hb, rfl⟩ := key p hp1
            obtain ⟨c, hc, rfl⟩ := key q hq1
            have := hp b c hb hc
            omega
      | delete n =>
        simp only [step]
        rcases delete_spec hs n with ⟨e, _⟩ | ⟨f, _, _, e, k⟩
        · rw [e]; exact ⟨_, rfl, hm⟩
        · rw [e]
          exact ⟨_, rfl, fun g hg => hm g (List.mem_filter.1 hg).1⟩
      | ping v => exact ⟨_, rfl, hm⟩
    obtain ⟨s2, e, hm2⟩ := hstep
    obtain ⟨s3, e3⟩ := ih s2 (step_ok hq hfq hs e) hm2 (fun o ho => hsub o (by simp [ho]))
    exact ⟨s3, by simp only [run, e, Res.ok_bind]; exact e3⟩

/-- Priorities from 0 to the largest `int` meet the hypothesis, and so do those below 0. -/
example (a b : Args) (h : (0 ≤ a.priority ∧ a.priority ≤ 2147483647) ∧ 0 ≤ b.priority ∧ b.priority ≤ 2147483647) : a.priority - b.priority ≤ 2147483647 := by omega

/-- C40 as stated is false: `cmpFlows` (/repo/src/lib/flow.c:106-111) subtracts priorities; with 2147483647 and -1 the difference overflows, which is undefined. -/
theorem C40_violated : (run isort fisort flowSetCreate [.define (fArgs "a" (-1) 1 ["0.0.0.0/0"]), .define (fArgs "b" 2147483647 2 ["0.0.0.0/0"])]).isUb = true := by decide +kernel

theorem bind_ok' {α β : Type} {x : Res α} {f : α → Res β} {r : β} (h : (x >>= f) = .ok r) : ∃ a, x = .ok a ∧ f a = .ok r := by
  cases x with
  | ok a => exact ⟨a, rfl, h⟩
  | die => cases h
  | ub => cases h
  | hang => cases h

/-- The last value that was set, or the first. -/
def lastPing (v : Bool) : List Op → Bool
  | [] => v
  | .ping w :: os => lastPing w os
  | .define _ :: os => lastPing v os
  | .delete _ :: os => lastPing v os

/-- C40: promiscuous ping is off in a new set, and then as it was last set, whatever flows are defined and deleted. -/
theorem C40_ping (rq : (Nat → Nat) → List Nat → List Nat) (hq : QSort rq) (fq : List Flow.Flow → List Flow.Flow) (hfq : Sorts fq) (ops : List Op) (set : FlowSet) (hr : run rq fq flowSetCreate ops = .ok set) :
    set.ping = lastPing false ops := by
  suffices ∀ (ops : List Op) (st : FlowSet), SetOK st → run rq fq st ops = .ok set → set.ping = lastPing st.ping ops from this ops flowSetCreate create_ok hr
  intro ops
  induction ops with
  | nil => intro st _ h; cases h; rfl
  | cons o os ih =>
    intro st hst h
    unfold run at h
    obtain ⟨st', h1, h2⟩ := bind_ok' h
    rw [ih st' (step_ok hq hfq hst h1) h2]
    have key : (∀ v, o ≠ .ping v) → st'.ping = st.ping := by
      intro hn
      cases o with
      | define a =>
        obtain ⟨⟨x, b⟩, e1, e2⟩ := bind_ok' h1
        cases e2
        rcases define_cases hq hfq hst a with e | ⟨x', f, name, e, -, -, -, -, -, -, -, ha, -⟩ | ⟨e, -⟩
        · rw [e] at e1; cases e1; rfl
        · rw [e] at e1; cases e1; exact ha.1
        · rw [e] at e1; cases e1
      | delete name =>
        obtain ⟨⟨x, b⟩, e1, e2⟩ := bind_ok' h1
        cases e2
        rcases delete_spec hst name with ⟨e, -⟩ | ⟨f, -, -, e, -⟩
        · rw [e] at e1; cases e1; rfl
        · rw [e] at e1; cases e1; rfl
      | ping v => exact absurd rfl (hn v)
    cases o with
    | define a => rw [key (fun _ => nofun)]; rfl
    | delete name => rw [key (fun _ => nofun)]; rfl
    | ping v => cases h1; rfl

example : (do
    let set ← run isort fisort flowSetCreate [.ping true, .define (fArgs "a" 5 1 ["0.0.0.0/0"]), .ping false, .delete "a".toList]
    return set.ping) = .ok false := by decide +kernel

/-! ### C41 -/

/-- After any history no two flows have the same name. -/
theorem C41_names (rq : (Nat → Nat) → List Nat → List Nat) (hq : QSort rq) (fq : List Flow.Flow → List Flow.Flow) (hfq : Sorts fq) (ops : List Op) (set : FlowSet) (hr : run rq fq flowSetCreate ops = .ok set) :
    set.flows.Pairwise (fun f g => f.name ≠ g.name) := (run_ok hq hfq ops create_ok hr).names

/-- After any history, a definition that does not run into the undefined cases of `C38_violated` and `C40_violated` either is refused and nothing is changed; or it is accepted, and then the set is, in some
order, the new flow and all flows with other names, unchanged, and the new flow is what the definition says (see also `C39_as_written`). It is refused only if the flow could not be made, or the name is missing or too long.
Missing for C41: these undefined cases. -/
theorem C41_define_partial (rq : (Nat → Nat) → List Nat → List Nat) (hq : QSort rq) (fq : List Flow.Flow → List Flow.Flow) (hfq : Sorts fq) (ops : List Op) (set : FlowSet) (hr : run rq fq flowSetCreate ops = .ok set)
    (a : Args) (set' : FlowSet) (accepted : Bool) (h : flowDefine rq fq set a = .ok (set', accepted)) :
    (accepted = false → set' = set ∧ ∀ name, a.name = some name → name.length ≤ 1023 → build rq a name = .ok none) ∧
    (accepted = true → ∃ f name, a.name = some name ∧ name.length ≤ 1023 ∧ build rq a name = .ok (some f) ∧ f.name = name ∧ f.priority = a.priority ∧ f.userRef = a.userRef ∧ f.udpencap = a.udpencap ∧
      set'.ping = set.ping ∧ set'.flows.Perm (f :: set.flows.filter (fun g => g.name ≠ name))) := by
  have hs := run_ok hq hfq ops create_ok hr
  rcases define_cases hq hfq hs a with e | ⟨s, f, n, e, e1, e2, e3, e4, e5, e6, e7, k, _⟩ | ⟨e, _⟩
  · rw [e] at h; cases h
    refine ⟨fun _ => ⟨rfl, ?_⟩, fun h => absurd h (by decide)⟩
    intro name hn hl
    unfold flowDefine at e
    simp only [hn] at e
    rw [if_neg (by omega)] at e
    cases hb : build rq a name with
    | ok o =>
      cases o with
      | none => rfl
      | some f =>
        exfalso
        rw [hb] at e
        simp only [Res.ok_bind, Res.pure_eq] at e
        cases ho : freeOld (putFlow f name set.flows).2 with
        | ok w =>
          rw [ho] at e
          simp only [Res.ok_bind] at e
          cases hso : sortFlows fq (putFlow f name set.flows).1 with
          | ok w => rw [hso] at e; simp at e
          | die => rw [hso] at e; cases e
          | ub => rw [hso] at e; cases e
          | hang => rw [hso] at e; cases e
        | die => rw [ho] at e; cases e
        | ub => rw [ho] at e; cases e
        | hang => rw [ho] at e; cases e
    | die => rw [hb] at e; cases e
    | ub => rw [hb] at e; cases e
    | hang => rw [hb] at e; cases e
  · rw [e] at h; cases h
    refine ⟨fun h => absurd h (by decide), fun _ => ⟨f, n, e1, e3, e2, e4, e5, e6, e7, k.1, ?_⟩⟩
    rw [← e4]; exact k.2
  · rw [e] at h; cases h

/-- Every definition as documented is accepted after any history with priorities not too far apart, and is then in the set. -/
theorem C41_accepted_partial (rq : (Nat → Nat) → List Nat → List Nat) (hq : QSort rq) (fq : List Flow.Flow → List Flow.Flow) (hfq : Sorts fq) (ops : List Op) (set : FlowSet) (hr : run rq fq flowSetCreate ops = .ok set)
    (d : Def) (hd : d.WF) (hp : ∀ p ∈ d.priority :: set.flows.map (·.priority), -1073741824 ≤ p ∧ p ≤ 1073741823) :
    ∃ set' f, flowDefine rq fq set d.args = .ok (set', true) ∧ build rq d.args d.name = .ok (some f) ∧ f ∈ set'.flows := by
  have hs := run_ok hq hfq ops create_ok hr
  obtain ⟨f, hb, _⟩ := build_def hq d hd
  have hshort : ∀ l : Option (List Net), (∀ m, l = some m → NetsWF m) → ShortNets (l.map (·.map Net.text)) := by
    intro l hl m hm s hs _
    cases l with
    | none => cases hm
    | some ns =>
      simp only [Option.map_some, Option.some.injEq] at hm
      subst hm
      rw [List.mem_map] at hs
      obtain ⟨n, hn, rfl⟩ := hs
      have hw := (hl ns rfl).2.2 n hn
      cases n with
      | v4 x p =>
        have : p ≤ 32 := hw
        have h1 := dotted_len x; have h2 := digits_len p (by omega)
        simp only [Net.text, List.length_append, List.length_cons, List.length_nil]
        omega
      | v6 x p =>
        obtain ⟨w1, w2⟩ := hw
        have h1 := text_len x w1; have h2 := digits_len p (by omega)
        simp only [Net.text, List.length_append, List.length_cons, List.length_nil]
        omega
  rcases define_cases hq hfq hs d.args with e | ⟨s, g, n, e, e1, e2, _, _, _, _, _, k, _⟩ | ⟨_, e2⟩
  · exfalso
    have hn := hd.name
    unfold flowDefine at e
    simp only [show d.args.name = some d.name from rfl] at e
    rw [if_neg (by omega), hb] at e
    simp only [Res.ok_bind, Res.pure_eq] at e
    cases ho : freeOld (putFlow f d.name set.flows).2 with
    | ok w =>
      rw [ho] at e
      simp only [Res.ok_bind] at e
      cases hso : sortFlows fq (putFlow f d.name set.flows).1 with
      | ok w => rw [hso] at e; simp at e
      | die => rw [hso] at e; cases e
      | ub => rw [hso] at e; cases e
      | hang => rw [hso] at e; cases e
    | die => rw [ho] at e; cases e
    | ub => rw [ho] at e; cases e
    | hang => rw [ho] at e; cases e
  · have : n = d.name := by
      simp only [Def.args, Option.some.injEq] at e1
      exact e1.symm
    subst this
    rw [hb] at e2
    simp only [Res.ok.injEq, Option.some.injEq] at e2
    subst e2
    exact ⟨s, f, e, hb, (k.2.mem_iff).2 (by simp)⟩
  · exfalso
    apply e2
    refine ⟨hshort _ hd.dsts, hshort _ hd.srcs, hp _ (by simp [Def.args]), ?_⟩
    intro f hf
    exact hp _ (by simp only [List.mem_cons, List.mem_map]; exact .inr ⟨f, hf, rfl⟩)

/-- A definition as documented, after any history: it is accepted, and the flow is then in the set, if and only if no two priorities, of the new flow and those with other names, are so far apart that their difference overflows;
otherwise sorting is undefined. It is never refused. -/
theorem C41_accepted_exact (rq : (Nat → Nat) → List Nat → List Nat) (hq : QSort rq) (fq : List Flow.Flow → List Flow.Flow) (hfq : Sorts fq) (ops : List Op) (set : FlowSet) (hr : run rq fq flowSetCreate ops = .ok set)
    (d : Def) (hd : d.WF) :
    ((∃ set' f, flowDefine rq fq set d.args = .ok (set', true) ∧ build rq d.args d.name = .ok (some f) ∧ f ∈ set'.flows) ↔
      ∀ p ∈ d.priority :: (set.flows.filter (fun g => g.name ≠ d.name)).map (·.priority), ∀ q ∈ d.priority :: (set.flows.filter (fun g => g.name ≠ d.name)).map (·.priority), p - q ≤ 2147483647) ∧
    (∀ set', flowDefine rq fq set d.args ≠ .ok (set', false)) := by
  have hs := run_ok hq hfq ops create_ok hr
  obtain ⟨f, hb, _⟩ := build_def hq d hd
  have hub := define_ub hq fq hs d.args
  have hno : ∀ set', flowDefine rq fq set d.args ≠ .ok (set', false) := by
    intro set' e
    have := (C41_define_partial rq hq fq hfq ops set hr d.args set' false e).1 rfl
    rw [this.2 d.name rfl (by have := hd.name; omega)] at hb
    cases hb
  refine ⟨⟨?_, ?_⟩, hno⟩
  · rintro ⟨set', g, e, _, _⟩ p hp q hq'
    apply Classical.byContradiction
    intro hc
    have := hub.2 ⟨d.name, rfl, by have := hd.name; omega, .inr ⟨⟨f, hb⟩, p, hp, q, hq', by omega⟩⟩
    rw [e] at this
    cases this
  · intro h
    rcases define_cases hq hfq hs d.args with e | ⟨s, g, n, e, e1, e2, _, _, _, _, _, k, _⟩ | ⟨e, _⟩
    · exact absurd e (hno _)
    · have : n = d.name := by
        simp only [Def.args, Option.some.injEq] at e1
        exact e1.symm
      subst this
      exact ⟨s, g, e, e2, (k.2.mem_iff).2 (by simp)⟩
    · exfalso
      obtain ⟨name, hn, _, h1 | ⟨_, p, hp, q, hq', hpq⟩⟩ := hub.1 e
      · simp only [Def.args, Option.some.injEq] at hn
        subst hn
        rw [hb] at h1
        cases h1
      · simp only [Def.args, Option.some.injEq] at hn
        subst hn
        have := h p hp q hq'
        omega

/-- Two documented definitions whose priorities differ by the greatest `int` are both accepted; one more is undefined. -/
example : [("a", 0), ("a", -1), ("web", -1)].map (fun (n, p) => (do
    let set ← run isort fisort flowSetCreate [.define (fArgs n 2147483647 1 ["0.0.0.0/0"]), .define { fDef.args with priority := p }]
    return set.flows.map (fun f => String.ofList f.name))) = [Res.ok ["a", "web"], Res.ub, Res.ok ["web"]] := by decide +kernel

theorem names_unique : ∀ (l : List Flow.Flow), l.Pairwise (fun f g => f.name ≠ g.name) → ∀ f ∈ l, ∀ g ∈ l, f.name = g.name → f = g
  | [], _ => by simp
  | a :: l, h => by
    rw [List.pairwise_cons] at h
    intro f hf g hg hn
    rw [List.mem_cons] at hf hg
    rcases hf with rfl | hf <;> rcases hg with rfl | hg
    · rfl
    · exact absurd hn (h.1 g hg)
    · exact absurd hn.symm (h.1 f hf)
    · exact names_unique l h.2 f hf g hg hn

/-- After any history, deleting a name removes exactly the flow with that name, and gives its target and `udpencap`; if there is none, nothing is changed. -/
theorem C41_delete (rq : (Nat → Nat) → List Nat → List Nat) (hq : QSort rq) (fq : List Flow.Flow → List Flow.Flow) (hfq : Sorts fq) (ops : List Op) (set : FlowSet) (hr : run rq fq flowSetCreate ops = .ok set) (name : List Char) :
    ((∀ f ∈ set.flows, f.name ≠ name) → flowDelete set name = .ok (set, 0, none)) ∧
    (∀ f ∈ set.flows, f.name = name → flowDelete set name = .ok (⟨set.flows.filter (fun g => g.name ≠ name), set.ping⟩, f.userRef, some f.udpencap)) := by
  have hs := run_ok hq hfq ops create_ok hr
  have huniq := names_unique set.flows hs.names
  rcases delete_spec hs name with ⟨e, h1⟩ | ⟨f, h1, h2, e, _⟩
  · exact ⟨fun _ => e, fun f hf hn => absurd hn (h1 f hf)⟩
  · refine ⟨fun h => absurd h2 (h f h1), ?_⟩
    intro g hg hn
    rw [huniq g hg f h1 (by rw [hn, h2])]
    exact e

/-- After any history, looking up a name gives the target and `udpencap` of the flow with that name. -/
theorem C41_lookup_name (rq : (Nat → Nat) → List Nat → List Nat) (hq : QSort rq) (fq : List Flow.Flow → List Flow.Flow) (hfq : Sorts fq) (ops : List Op) (set : FlowSet) (hr : run rq fq flowSetCreate ops = .ok set) (name : List Char) :
    (flowLookupName set name = none ↔ ∀ f ∈ set.flows, f.name ≠ name) ∧ (∀ x, flowLookupName set name = some x → ∃ f ∈ set.flows, f.name = name ∧ x = (f.userRef, f.udpencap)) := by
  have hs := run_ok hq hfq ops create_ok hr
  unfold flowLookupName
  cases hf : set.flows.find? (fun f => sameName f.name name) with
  | none =>
    rw [List.find?_eq_none] at hf
    refine ⟨⟨fun _ f hm hn => hf f hm ((sameName_iff (hs.short f hm)).2 hn), fun _ => rfl⟩, by simp⟩
  | some f =>
    have h1 := List.mem_of_find?_eq_some hf
    have h2 := (sameName_iff (hs.short f h1)).1 (by have := List.find?_some hf; simpa using this)
    refine ⟨by simp only [reduceCtorEq, false_iff]; exact fun h => h f h1 h2, ?_⟩
    rintro x ⟨⟩
    exact ⟨f, h1, h2, rfl⟩

/-- A set after a history, and what a refused and an accepted definition and a deletion do. -/
def fShow (x : FlowSet) : List (String × Nat) := x.flows.map (fun f => (String.ofList f.name, f.userRef))

def fHist : List Op := [.define (fArgs "a" 5 1 ["0.0.0.0/0"]), .define (fArgs "b" 9 2 ["10.0.0.0/24"])]

example : (do let set ← run isort fisort flowSetCreate fHist; let r ← flowDefine isort fisort set (fArgs "a" 6 3 ["10.0.0.0/33"]); return (fShow r.1, r.2)) = Res.ok ([("b", 2), ("a", 1)], false) := by decide +kernel

example : (do let set ← run isort fisort flowSetCreate fHist; let r ← flowDefine isort fisort set (fArgs "a" 16 3 ["10.0.0.0/32"]); return (fShow r.1, r.2)) = Res.ok ([("a", 3), ("b", 2)], true) := by decide +kernel

example : (do let set ← run isort fisort flowSetCreate fHist; let r ← flowDelete set "b".toList; return (fShow r.1, r.2)) = Res.ok ([("a", 1)], (2, some 0)) := by decide +kernel

example : (do let set ← run isort fisort flowSetCreate fHist; return [flowLookupName set "b".toList, flowLookupName set "c".toList]) = Res.ok [some (2, 0), none] := by decide +kernel

/-- C41 as stated is false: a definition with a network of 128 or more characters with a colon is undefined, as is one with a priority too far from another one. -/
theorem C41_violated : (flowDefine isort fisort flowSetCreate (fArgs "a" 0 1 [String.ofList (List.replicate 128 ':')])).isUb = true ∧
    (do let set ← run isort fisort flowSetCreate [.define (fArgs "a" (-2) 1 ["0.0.0.0/0"])]
        flowDefine isort fisort set (fArgs "b" 2147483647 1 ["0.0.0.0/0"])).isUb = true := by decide +kernel

end Nfqlb.Props
