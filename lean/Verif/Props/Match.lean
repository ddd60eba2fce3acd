import Verif.Proof.MatchText

/-! C46 to C48: byte-match expressions. -/

set_option autoImplicit false

namespace Nfqlb.Props

open Nfqlb.Match Nfqlb.Spec Nfqlb.Spec.BM

/-- Whatever the parser accepts is written as documented; and everything written as documented in at most 64 characters, with plain numbers, and inside the header, is accepted. -/
theorem C46_syntax (s : List Char) :
    ((∃ i, matchParse s = .ok (some i)) → ∃ e : Expr, e.WF ∧ e.text = s) ∧
    (∀ e : Expr, e.WF → e.text = s → s.length ≤ 64 → e.Plain → e.InHeader → ∃ i, matchParse s = .ok (some i)) := by
  constructor
  · rintro ⟨i, h⟩
    obtain ⟨e, h1, h2, _⟩ := parse_item h
    exact ⟨e, h1, h2⟩
  · rintro e h1 rfl h2 hp hi
    have := plain_in hp hi
    exact ⟨_, by rw [parse_text e h1 h2, if_neg (by omega)]⟩

/-- The parser says yes or no for every string; nothing undefined happens. -/
theorem C46_parse_total (s : List Char) : ∃ r, matchParse s = .ok r := parse_ok s

theorem v4_pre (x : V4) : ∃ pre : Packet, x.bytes = pre ++ x.payload ∧ pre.length = 20 + x.opts.length := by
  refine ⟨[UInt8.ofNat (4 * 16 + (5 + x.opts.length / 4)), x.tos, x.totlen.1, x.totlen.2, x.ident.1, x.ident.2, x.flagsFrag.1, x.flagsFrag.2, x.ttl, x.proto, x.csum.1, x.csum.2,
    x.src.a, x.src.b, x.src.c, x.src.d, x.dst.a, x.dst.b, x.dst.c, x.dst.d] ++ x.opts, ?_, ?_⟩
  · unfold V4.bytes
    exact (List.append_assoc _ _ _).symm
  · rw [List.length_append]; rfl

theorem v6_pre {x : V6} (hx : x.WF) : ∃ pre : Packet, x.bytes = pre ++ x.payload ∧ pre.length = 40 := by
  refine ⟨x.vtf ++ ([x.plen.1, x.plen.2, x.nxt, x.hlim] ++ (x.src ++ x.dst)), by unfold V6.bytes; simp, ?_⟩
  have := hx.1; have := hx.2.1; have := hx.2.2
  simp; omega

/-- Match expressions written as documented, with plain numbers and inside the header, are all accepted, and then for every packet whose transport header is complete, and which has at least one byte more,
the result is as the expressions say: IPv4, IPv6, and for SCTP in UDP in both.
Missing for C46: numbers that are not plain, packets that end with the header, and IPv6 extension headers, see `C46_violated`. -/
theorem C46_as_written_partial (es : List Expr) (hes : ∀ e ∈ es, e.WF ∧ e.Plain ∧ e.InHeader ∧ e.text.length ≤ 64) :
    ∃ m, matchAddAll [] (es.map Expr.text) = .ok (some m) ∧
      (∀ (x : V4) (p : Proto) (hdr rest : List UInt8) (l4 : Nat), x.WF → x.proto = p.num → x.payload = hdr ++ rest → hdr.length = p.hlen → rest ≠ [] → ¬ (p = .udp ∧ l4 = 132) →
        matchMatches (some m) 0x0800 l4 x.bytes = .ok (decide (AllHold es p.num hdr))) ∧
      (∀ (x : V6) (p : Proto) (hdr rest : List UInt8) (l4 : Nat), x.WF → x.nxt = p.num → x.payload = hdr ++ rest → hdr.length = p.hlen → rest ≠ [] → ¬ (p = .udp ∧ l4 = 132) →
        matchMatches (some m) 0x86dd l4 x.bytes = .ok (decide (AllHold es p.num hdr))) ∧
      (∀ (x : V4) (udp hdr rest : List UInt8), x.WF → x.proto = Proto.udp.num → x.payload = udp ++ (hdr ++ rest) → udp.length = Proto.udp.hlen → hdr.length = Proto.sctp.hlen → rest ≠ [] →
        matchMatches (some m) 0x0800 132 x.bytes = .ok (decide (AllHold es Proto.sctp.num hdr))) ∧
      (∀ (x : V6) (udp hdr rest : List UInt8), x.WF → x.nxt = Proto.udp.num → x.payload = udp ++ (hdr ++ rest) → udp.length = Proto.udp.hlen → hdr.length = Proto.sctp.hlen → rest ≠ [] →
        matchMatches (some m) 0x86dd 132 x.bytes = .ok (decide (AllHold es Proto.sctp.num hdr))) := by
  have hes' : ∀ e ∈ es, e.WF = true ∧ e.Plain ∧ e.InHeader := fun e he => ⟨(hes e he).1, (hes e he).2.1, (hes e he).2.2.1⟩
  refine ⟨es.map itemOf, ?_, ?_, ?_, ?_, ?_⟩
  · have := addAll_exprs es [] (fun e he => ⟨(hes e he).1, (hes e he).2.2.2, plain_in (hes e he).2.1 (hes e he).2.2.1⟩)
    simpa using this
  · intro x p hdr rest l4 hx hp hpay hl hr henc
    have hrl : 0 < rest.length := List.length_pos_iff.2 hr
    have h4 := l4_v4 hx p hp (by rw [hpay, List.length_append]; omega)
    have hb : ∃ pre : Packet, x.bytes = pre ++ (hdr ++ rest) ∧ pre.length = 20 + x.opts.length := by
      obtain ⟨pre, h1, h2⟩ := v4_pre x
      exact ⟨pre, by rw [h1, hpay], h2⟩
    obtain ⟨pre, hb, hpl⟩ := hb
    rw [hb] at h4 ⊢
    exact matches_end es hes' 0x0800 l4 p pre hdr rest hl henc (by rw [if_pos rfl, h4, hpl])
  · intro x p hdr rest l4 hx hp hpay hl hr henc
    have hrl : 0 < rest.length := List.length_pos_iff.2 hr
    have h4 := l4_v6 hx p hp (by rw [hpay, List.length_append]; omega)
    have hb : ∃ pre : Packet, x.bytes = pre ++ (hdr ++ rest) ∧ pre.length = 40 := by
      obtain ⟨pre, h1, h2⟩ := v6_pre hx
      exact ⟨pre, by rw [h1, hpay], h2⟩
    obtain ⟨pre, hb, hpl⟩ := hb
    rw [hb] at h4 ⊢
    exact matches_end es hes' 0x86dd l4 p pre hdr rest hl henc (by rw [if_neg (by decide), h4, hpl])
  · intro x udp hdr rest hx hp hpay hu hl hr
    have hu' : udp.length = 8 := hu
    have hl' : hdr.length = 12 := hl
    have h4 := l4_v4 hx .udp hp (by rw [hpay]; simp only [List.length_append]; show 8 < _; omega)
    have hb : ∃ pre : Packet, x.bytes = pre ++ (udp ++ (hdr ++ rest)) ∧ pre.length = 20 + x.opts.length := by
      obtain ⟨pre, h1, h2⟩ := v4_pre x
      exact ⟨pre, by rw [h1, hpay], h2⟩
    obtain ⟨pre, hb, hpl⟩ := hb
    rw [hb] at h4 ⊢
    exact matches_encap es hes' 0x0800 pre udp hdr rest hu' hl' hr (by rw [if_pos rfl, h4, hpl])
  · intro x udp hdr rest hx hp hpay hu hl hr
    have hu' : udp.length = 8 := hu
    have hl' : hdr.length = 12 := hl
    have h4 := l4_v6 hx .udp hp (by rw [hpay]; simp only [List.length_append]; show 8 < _; omega)
    have hb : ∃ pre : Packet, x.bytes = pre ++ (udp ++ (hdr ++ rest)) ∧ pre.length = 40 := by
      obtain ⟨pre, h1, h2⟩ := v6_pre hx
      exact ⟨pre, by rw [h1, hpay], h2⟩
    obtain ⟨pre, hb, hpl⟩ := hb
    rw [hb] at h4 ⊢
    exact matches_encap es hes' 0x86dd pre udp hdr rest hu' hl' hr (by rw [if_neg (by decide), h4, hpl])

/-- `tcp[12 : 2] & 0x01ff = 0x2`, in two spellings (the second has no mask and is for UDP). -/
def mExpr1 : Expr := ⟨.tcp, "12".toList, 1, 1, 2, some ⟨1, 1, "01ff".toList⟩, 1, 1, .hex "2".toList⟩
def mExpr2 : Expr := ⟨.udp, "0".toList, 0, 0, 4, none, 0, 0, .dec "16909060".toList⟩

example : mExpr1.text = "tcp[12 : 2] & 0x01ff = 0x2".toList := by decide
example : ∀ e ∈ [mExpr1, mExpr2], e.WF ∧ e.Plain ∧ e.InHeader ∧ e.text.length ≤ 64 := by
  intro e he
  simp only [List.mem_cons, List.not_mem_nil, or_false] at he
  rcases he with rfl | rfl
  · refine ⟨by decide, ⟨by decide, by decide, ?_, by decide, ?_⟩, ?_, by decide⟩
    · intro m hm; cases hm; decide
    · intro ds hd; cases hd
    · unfold Expr.InHeader; decide
  · refine ⟨by decide, ⟨by decide, by decide, ?_, by decide, ?_⟩, ?_, by decide⟩
    · intro m hm; cases hm
    · intro ds hd; cases hd; decide
    · unfold Expr.InHeader; decide

/-- A UDP packet of IPv4 with ports 0x0102 and 0x0304. -/
def mPkt (payload : List UInt8) : V4 :=
  { tos := 0, totlen := (0, 29), ident := (0, 0), flagsFrag := (0, 0), ttl := 64, proto := 17, csum := (0, 0), src := ⟨10, 0, 0, 1⟩, dst := ⟨10, 0, 0, 2⟩, opts := [], payload := payload }

example : (mPkt [1, 2, 3, 4, 0, 9, 0, 0, 7]).WF ∧ (mPkt [1, 2, 3, 4, 0, 9, 0, 0, 7]).payload = [1, 2, 3, 4, 0, 9, 0, 0] ++ [7] ∧
    matchMatches (some [itemOf mExpr1, itemOf mExpr2]) 0x0800 17 (mPkt [1, 2, 3, 4, 0, 9, 0, 0, 7]).bytes = .ok true := by
  refine ⟨by unfold V4.WF; decide, rfl, by decide +kernel⟩

/-- C46 as stated is false. An accepted expression is not always evaluated as written:
* decimal numbers with a leading zero are read as octal: `tcp[010:1]=0` looks at offset 8, `udp[0:1]=017` compares with 15, and `udp[08:1]=0` — refused if read as documented — is accepted and looks
  at offset 0;
* a mask of 0 counts as no mask;
* values are cut to 32 bits;
* a packet that ends with its complete transport header never matches (for example an UDP datagram without payload);
* behind an IPv6 extension header nothing matches, or the header is looked for at the wrong place. -/
theorem C46_violated :
    (matchParse "tcp[010:1]=0".toList = .ok (some ⟨6, 8, 1, 0, 0⟩) ∧ matchParse "udp[0:1]=017".toList = .ok (some ⟨17, 0, 1, 0, 15⟩) ∧
      matchParse "udp[08:1]=0".toList = .ok (some ⟨17, 0, 1, 0, 0⟩)) ∧
    (∃ m, matchAddAll [] ["udp[0:1]&0x0=0".toList] = .ok (some m) ∧ matchMatches (some m) 0x0800 17 (mPkt [1, 2, 3, 4, 0, 9, 0, 0, 7]).bytes = .ok false) ∧
    (∃ m, matchAddAll [] ["udp[0:4]=0x101020304".toList] = .ok (some m) ∧ matchMatches (some m) 0x0800 17 (mPkt [1, 2, 3, 4, 0, 9, 0, 0, 7]).bytes = .ok true) ∧
    (∃ m, matchAddAll [] ["udp[0:2]=0x102".toList] = .ok (some m) ∧ matchMatches (some m) 0x0800 17 (mPkt [1, 2, 3, 4, 0, 9, 0, 0, 7]).bytes = .ok true ∧
      matchMatches (some m) 0x0800 17 (mPkt [1, 2, 3, 4, 0, 8, 0, 0]).bytes = .ok false) ∧
    (∃ m, matchAddAll [] ["udp[0:2]=0x102".toList] = .ok (some m) ∧ ∃ (x : V6) (e : ExtHdr), x.WF ∧ e.WF ∧ x.nxt = 60 ∧ e.nxt = 17 ∧ x.payload = e.bytes ++ [1, 2, 3, 4, 0, 9, 0, 0, 7] ∧
      matchMatches (some m) 0x86dd 17 x.bytes = .ok false) := by
  refine ⟨⟨by decide +kernel, by decide +kernel, by decide +kernel⟩, ⟨[⟨17, 0, 1, 0, 0⟩], by decide +kernel, by decide +kernel⟩, ⟨[⟨17, 0, 4, 0, 0x1020304⟩], by decide +kernel, by decide +kernel⟩,
    ⟨[⟨17, 0, 2, 0, 0x102⟩], by decide +kernel, by decide +kernel, by decide +kernel⟩, ⟨[⟨17, 0, 2, 0, 0x102⟩], by decide +kernel, ?_⟩⟩
  refine ⟨⟨[0x60, 0, 0, 0], (0, 17), 60, 64, List.replicate 16 1, List.replicate 16 2, [17, 0, 1, 4, 0, 0, 0, 0, 1, 2, 3, 4, 0, 9, 0, 0, 7]⟩, ⟨17, [1, 4, 0, 0, 0, 0]⟩, ?_, ?_, rfl, rfl, by decide +kernel, by decide +kernel⟩
  · unfold V6.WF; decide
  · unfold ExtHdr.WF; decide

/-- If the offsets plus lengths of the accepted items do not exceed 32 bits then every item is inside its header, and evaluation for any bytes at all, with any protocols, reads only bytes of the packet.
Missing for C47: offsets near 2^32, see `C47_violated`. -/
theorem C47_in_header_partial (ss : List (List Char)) (m : Match) (h : matchAddAll [] ss = .ok (some m)) (h32 : ∀ i ∈ m, i.offset + i.nbytes < 4294967296) :
    (∀ i ∈ m, i.offset + i.nbytes ≤ headerlength i.proto) ∧ ∀ proto l4 data, ∃ b, matchMatches (some m) proto l4 data = .ok b := by
  obtain ⟨es, _, hm, he⟩ := addAll_items ss [] m h
  have key : ∀ i ∈ m, (i.nbytes = 1 ∨ i.nbytes = 2 ∨ i.nbytes = 4) ∧ i.offset + i.nbytes ≤ headerlength i.proto := by
    intro i hi
    have hlt := h32 i hi
    rw [hm, List.nil_append, List.mem_map] at hi
    obtain ⟨e, hee, rfl⟩ := hi
    obtain ⟨h1, _, h3⟩ := he e hee
    have hn := ((wf_iff e).1 h1).2.1
    refine ⟨hn, ?_⟩
    have hlt' : cnum e.offset + e.nbytes < 4294967296 := hlt
    rw [u32_small hlt'] at h3
    show cnum e.offset + e.nbytes ≤ headerlength e.proto.num.toNat
    rw [headerlength_num]; exact h3
  exact ⟨fun i hi => (key i hi).2, fun proto l4 data => matches_ok m proto l4 data key⟩

/-- The header lengths the items are checked against are those of the protocols. -/
theorem C47_headerlength (p : Proto) : headerlength p.num.toNat = p.hlen := headerlength_num p

/-- Expressions outside the header are refused, as long as offset plus length does not exceed 32 bits. -/
theorem C47_refused_partial (e : Expr) (hw : e.WF) (hp : e.Plain) (hout : ¬ e.InHeader) (h32 : e.off + e.nbytes < 4294967296) : matchParse e.text = .ok none := by
  rcases parse_cases e.text with h | ⟨e', h1, h2, h3⟩
  · exact h
  · rw [parse_text e hw h3, if_pos]
    have h32' : positional 10 e.offset + e.nbytes < 4294967296 := h32
    rw [cnum_plain hp.1 hp.2.1, u32_small h32']
    exact Nat.lt_of_not_le hout

example : matchAddAll [] ["tcp[12 : 2] & 0x01ff = 0x2".toList, "udp[0:4]=16909060".toList] = .ok (some [⟨6, 12, 2, 0x1ff, 2⟩, ⟨17, 0, 4, 0, 16909060⟩]) := by decide +kernel
example : (⟨.udp, "7".toList, 0, 0, 2, none, 0, 0, .dec "1".toList⟩ : Expr).WF ∧ ¬ (⟨.udp, "7".toList, 0, 0, 2, none, 0, 0, .dec "1".toList⟩ : Expr).InHeader := by
  unfold Expr.InHeader; decide

theorem matches_outside (x : V4) (off l4 : Nat) (hx : x.WF) (hp : x.proto = 6) (hl : 20 < x.payload.length) (hlen : x.bytes.length ≤ off) :
    matchMatches (some [⟨6, off, 1, 0, 0⟩]) 0x0800 l4 x.bytes = .ub := by
  have h4 := l4_v4 hx .tcp hp hl
  have h5 : rd x.bytes (20 + x.opts.length + off) = .ub := by
    unfold rd; rw [List.getElem?_eq_none (by omega)]
  unfold matchMatches
  dsimp only
  rw [if_neg (by simp), if_pos rfl, h4]
  simp only [Res.ok_bind]
  rw [if_neg (by intro h; exact absurd h.1 (by decide))]
  unfold matchItems
  have h6 : Proto.tcp.num.toNat = 6 := rfl
  rw [if_pos h6.symm]
  unfold matchesItem
  simp only [readNumber, h5, Res.ub_bind]

/-- C47 as stated is false: offset plus length wraps around at 32 bits. `tcp[4294967295:1]=0` is accepted, and its evaluation for any IPv4 packet with a complete TCP header and more (and less than 4 GiB) reads
outside the packet. -/
theorem C47_violated : ∃ i, matchParse "tcp[4294967295:1]=0".toList = .ok (some i) ∧
    ∀ (x : V4) (l4 : Nat), x.WF → x.proto = 6 → 20 < x.payload.length → x.bytes.length ≤ 4294967295 → matchMatches (some [i]) 0x0800 l4 x.bytes = .ub :=
  ⟨⟨6, 4294967295, 1, 0, 0⟩, by decide +kernel, fun x l4 hx hp hl hlen => matches_outside x 4294967295 l4 hx hp hl hlen⟩

example : (⟨0, (0, 60), (0, 0), (0, 0), 64, 6, (0, 0), ⟨10, 0, 0, 1⟩, ⟨10, 0, 0, 2⟩, [], List.replicate 40 0⟩ : V4).WF := by unfold V4.WF; decide

/-- Evaluation of an item whose offset is beyond the packet. -/
theorem matches_beyond (x : V4) (p : Proto) (i : Item) (l4 : Nat) (hx : x.WF) (hp : x.proto = p.num) (hip : i.proto = p.num.toNat) (hn : i.nbytes = 1 ∨ i.nbytes = 2 ∨ i.nbytes = 4)
    (hl : p.hlen < x.payload.length) (hlen : x.bytes.length ≤ i.offset) (hu : ¬ (p = .udp ∧ l4 = 132)) : matchMatches (some [i]) 0x0800 l4 x.bytes = .ub := by
  have h4 := l4_v4 hx p hp hl
  have h5 : rd x.bytes (20 + x.opts.length + i.offset) = .ub := by
    unfold rd; rw [List.getElem?_eq_none (by omega)]
  unfold matchMatches
  dsimp only
  rw [if_neg (by simp), if_pos rfl, h4]
  simp only [Res.ok_bind]
  rw [if_neg (by rintro ⟨h, h'⟩; exact hu ⟨by cases p <;> first | rfl | exact absurd h (by decide), h'⟩)]
  unfold matchItems
  rw [if_pos hip]
  unfold matchesItem
  rcases hn with h | h | h <;> rw [h] <;> simp only [readNumber, h5, Res.ub_bind]

/-- **C47**, which expressions are dangerous, exactly. Every text is refused, or its item is inside the header and evaluation for any bytes at all reads only bytes of the packet, or offset plus length is 2^32 or
more and evaluation for every IPv4 packet of the protocol with a complete header and more (and less than 4 GiB) reads outside the packet. -/
theorem C47_exact (s : List Char) :
    matchParse s = .ok none ∨
    ∃ (i : Item) (p : Proto), matchParse s = .ok (some i) ∧ i.proto = p.num.toNat ∧
      (i.offset + i.nbytes ≤ p.hlen ∧ (∀ proto l4 data, ∃ b, matchMatches (some [i]) proto l4 data = .ok b) ∨
       4294967296 ≤ i.offset + i.nbytes ∧ ∀ (x : V4) (l4 : Nat), x.WF → x.proto = p.num → p.hlen < x.payload.length → x.bytes.length < 4294967292 → ¬ (p = .udp ∧ l4 = 132) →
         matchMatches (some [i]) 0x0800 l4 x.bytes = .ub) := by
  rcases parse_cases s with h | ⟨e, h1, rfl, h3⟩
  · exact .inl h
  · rw [parse_text e h1 h3]
    by_cases hu : u32 (cnum e.offset + e.nbytes) > e.proto.hlen
    · left; rw [if_pos hu]
    · right
      rw [if_neg hu]
      have hn := ((wf_iff e).1 h1).2.1
      refine ⟨itemOf e, e.proto, rfl, rfl, ?_⟩
      by_cases hw : cnum e.offset + e.nbytes < 4294967296
      · left
        rw [u32_small hw] at hu
        have hin : cnum e.offset + e.nbytes ≤ e.proto.hlen := Nat.le_of_not_lt hu
        refine ⟨hin, fun proto l4 data => matches_ok [itemOf e] proto l4 data ?_⟩
        intro i hi
        rw [List.mem_singleton] at hi
        subst hi
        refine ⟨hn, ?_⟩
        show cnum e.offset + e.nbytes ≤ headerlength e.proto.num.toNat
        rw [headerlength_num]; exact hin
      · right
        have hw' : 4294967296 ≤ cnum e.offset + e.nbytes := Nat.le_of_not_lt hw
        refine ⟨hw', fun x l4 hx hp hl hlen hnu => matches_beyond x e.proto (itemOf e) l4 hx hp rfl hn hl ?_ hnu⟩
        show x.bytes.length ≤ cnum e.offset
        omega

/-- Which of the plainly written expressions are accepted: those whose offset plus length, modulo 2^32, is at most the length of the header. -/
theorem C47_accepted (e : Expr) (hw : e.WF) (hp : e.Plain) (hl : e.text.length ≤ 64) :
    (∃ i, matchParse e.text = .ok (some i)) ↔ (e.off + e.nbytes) % 4294967296 ≤ e.proto.hlen := by
  rw [parse_text e hw hl, cnum_plain hp.1 hp.2.1]
  show (∃ i, Res.ok (if (e.off + e.nbytes) % 4294967296 > e.proto.hlen then none else some (itemOf e)) = Res.ok (some i)) ↔ _
  by_cases h : (e.off + e.nbytes) % 4294967296 > e.proto.hlen
  · rw [if_pos h]
    constructor
    · rintro ⟨i, hi⟩; cases hi
    · intro h'; omega
  · rw [if_neg h]
    exact ⟨fun _ => Nat.le_of_not_lt h, fun _ => ⟨_, rfl⟩⟩

/-- The two kinds of accepted expressions. -/
example : matchParse "udp[4294967294:4]=7".toList = .ok (some ⟨17, 4294967294, 4, 0, 7⟩) ∧ 4294967296 ≤ 4294967294 + 4 ∧
    matchParse "udp[4:4]=7".toList = .ok (some ⟨17, 4, 4, 0, 7⟩) ∧ matchParse "udp[4294967200:4]=7".toList = .ok none := by decide +kernel
example : (⟨.udp, "4294967294".toList, 0, 0, 4, none, 0, 0, .dec "7".toList⟩ : Expr).WF ∧ (⟨.udp, "4294967294".toList, 0, 0, 4, none, 0, 0, .dec "7".toList⟩ : Expr).Plain ∧
    (⟨.udp, "4294967294".toList, 0, 0, 4, none, 0, 0, .dec "7".toList⟩ : Expr).text.length ≤ 64 := by
  refine ⟨by decide, ⟨by decide, by decide, (fun m h => by cases h), by decide, fun ds h h' => ?_⟩, by decide⟩
  cases h; exact absurd h' (by decide)

/-- The text printed for accepted expressions, if there is room for it, is accepted (as the comma separated list that `nfqlb flow-set --match` takes, /repo/src/nfqlb/cmdFlow.c) and gives the same items. If
there is room printing succeeds, if there is none it reports that; it never writes outside the buffer. -/
theorem C48_round_trip (ss : List (List Char)) (m : Match) (h : matchAddAll [] ss = .ok (some m)) (len : Nat) (hl : 0 < len) :
    ∃ rc out, matchString m len = .ok (rc, out) ∧ (rc = 0 ∨ rc = 1) ∧ (rc = 0 → matchAddAll [] (CText.tokens [','] out) = .ok (some m)) := by
  obtain ⟨rc, out, h1, h2, _, h4⟩ := string_spec m len hl
  refine ⟨rc, out, h1, h2, ?_⟩
  intro h0
  obtain ⟨es, _, hm, he⟩ := addAll_items ss [] m h
  have hi : ∀ i ∈ m, ∃ s, matchParse s = .ok (some i) := by
    intro i hi
    rw [hm, List.nil_append, List.mem_map] at hi
    obtain ⟨e, hee, rfl⟩ := hi
    obtain ⟨h1, h2, h3⟩ := he e hee
    exact ⟨_, by rw [parse_text e h1 h2, if_neg (by omega)]⟩
  rw [h4 h0, tokens_full m (fun i hm => by obtain ⟨s, hs⟩ := hi i hm; exact itemText_comma hs), addAll_ok (m.map itemText) [] m]
  · rfl
  · rw [List.map_map]
    apply List.map_congr_left
    intro i hm
    obtain ⟨s, hs⟩ := hi i hm
    exact reparse hs

/-- Without a buffer this is reported, and nothing is written. -/
theorem C48_no_buffer (m : Match) : matchString m 0 = .ok (-1, []) := by
  unfold matchString
  rw [if_pos rfl]

/-- With 66 characters for each expression, and one more, there is room. -/
theorem C48_room (ss : List (List Char)) (m : Match) (h : matchAddAll [] ss = .ok (some m)) (len : Nat) (hl : 66 * m.length < len) : ∃ out, matchString m len = .ok (0, out) := by
  obtain ⟨rc, out, h1, h2, h3, _⟩ := string_spec m len (by omega)
  obtain ⟨es, _, hm, he⟩ := addAll_items ss [] m h
  have hi : ∀ i ∈ m, (itemText i).length ≤ 64 := by
    intro i hi
    rw [hm, List.nil_append, List.mem_map] at hi
    obtain ⟨e, hee, rfl⟩ := hi
    obtain ⟨h1, h2, h3⟩ := he e hee
    have hp : matchParse e.text = .ok (some (itemOf e)) := by rw [parse_text e h1 h2, if_neg (by omega)]
    rcases parse_cases (itemText (itemOf e)) with h | ⟨_, _, _, h⟩
    · rw [reparse hp] at h; cases h
    · exact h
  have ht : ∀ l : Match, (∀ i ∈ l, (itemText i).length ≤ 64) → (tailText l).length ≤ 65 * l.length := by
    intro l hl
    induction l with
    | nil => simp [tailText]
    | cons a l ih =>
      have := ih (fun i hi => hl i (by simp [hi]))
      have := hl a (by simp)
      simp [tailText] at *; omega
  have hf : (fullText m).length < len := by
    cases m with
    | nil => simp [fullText]; omega
    | cons a l =>
      have := ht l (fun i hi' => hi i (by simp [hi']))
      have := hi a (by simp)
      simp [fullText] at *; omega
  exact ⟨out, by rw [h1, h3.2 hf]⟩

example : matchString [⟨6, 12, 2, 0x1ff, 2⟩, ⟨17, 0, 4, 0, 16909060⟩] 64 = .ok (0, "tcp[12:2]&0x1ff=0x2,udp[0:4]=0x1020304".toList) := by decide +kernel

end Nfqlb.Props
