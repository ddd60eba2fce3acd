import Verif.Proof.Packet
import Verif.Spec.Hash

set_option autoImplicit false

namespace Nfqlb

open Spec

theorem djb2_spec (l : List UInt8) : Nfqlb.djb2 l = Spec.djb2 l := by
  unfold Nfqlb.djb2 Spec.djb2
  suffices h : ∀ (l : List UInt8) (a b : Nat), a = b % 2 ^ 32 →
      l.foldl (fun h c => u32 (u32 (u32 (h * 32) + h) + c.toNat)) a
        = (l.foldl (fun h (c : UInt8) => h * 33 + c.toNat) b) % 2 ^ 32 from
    h l 5381 5381 rfl
  intro l
  induction l with
  | nil => intro a b h; simpa using h
  | cons c l ih =>
    intro a b h
    simp only [List.foldl_cons]
    apply ih
    subst h
    unfold u32
    omega

theorem isExt_iff (t : UInt8) : isExtensionHeader t = true ↔ IsExt t := by
  unfold isExtensionHeader IsExt; simp [or_assoc]

/-- What the checked loop arrives at. -/
theorem walkExt_chain (d : Packet) : ∀ (f : Nat) (t : UInt8) (pos : Nat) (t' : UInt8) (pos' : Nat),
    walkExt true d f t pos = .ok (some (t', pos')) → ChainEnd d t pos t' pos' := by
  intro f
  induction f with
  | zero => intro t pos t' pos' h; simp [walkExt] at h
  | succ f ih =>
    intro t pos t' pos' h
    unfold walkExt at h
    split at h
    · rename_i h1
      simp only [Res.ok.injEq, Option.some.injEq, Prod.mk.injEq] at h
      obtain ⟨rfl, rfl⟩ := h
      apply ChainEnd.upper
      rw [← isExt_iff]; simpa using h1
    · rename_i h1
      have hext : IsExt t := by rw [← isExt_iff]; simpa using h1
      split at h
      · rename_i h2
        simp only [Res.ok.injEq, Option.some.injEq, Prod.mk.injEq] at h
        obtain ⟨rfl, rfl⟩ := h
        have : t = 44 := by simpa using h2
        subst this
        exact ChainEnd.frag
      · rename_i h2
        split at h
        · simp at h
        · rename_i hb
          have hb' : pos + 2 < d.length := by simpa [inBounds_iff] using hb
          have ha : rd d pos = .ok (d[pos]'(by omega)) := by unfold rd; rw [List.getElem?_eq_getElem]
          have hl : rd d (pos + 1) = .ok (d[pos + 1]'(by omega)) := by unfold rd; rw [List.getElem?_eq_getElem]
          rw [ha, hl] at h
          simp only [Res.ok_bind] at h
          split at h
          · simp at h
          · rename_i hl0
            refine ChainEnd.step hext (by simpa using h2) hb' (List.getElem?_eq_getElem _) (List.getElem?_eq_getElem _) hl0 (ih _ _ _ _ h)

/-! ### Ports -/

theorem ntohs_portNum (p : Raw16) : ntohs p = portNum p := rfl

theorem ports_plain (ue : Nat) {x : L4} (hx : x.WF) (proto : UInt8) (swap : Bool) (k : Key) (rc : Int)
    (f : Option (Raw16 × Raw16)) (h : ¬ (ue ≠ 0 ∧ proto = 17 ∧ portNum (if swap then x.sport else x.dport) = ue)) :
    portsPart ue x.bytes proto 0 swap k rc f = .ok
      { rc := rc, fragid := f, key := { k with sport := (if swap then x.dport else x.sport), dport := (if swap then x.sport else x.dport) } } := by
  unfold portsPart
  have hl : x.bytes.length = 4 + x.rest.length := by simp [L4.bytes]; omega
  have hb : (!inBounds 0 4 x.bytes.length) = false := by
    unfold L4.WF at hx; rw [Bool.not_eq_false', inBounds_iff, hl]; omega
  have r0 : rd16 x.bytes 0 = .ok x.sport := rfl
  have r1 : rd16 x.bytes (0 + 2) = .ok x.dport := rfl
  rw [hb]
  simp only [Bool.false_eq_true, if_false, r0, r1, Res.ok_bind]
  rw [if_neg (by simpa only [ntohs_portNum] using h)]
  rfl

theorem ports_encap (ue : Nat) {x y : L4} {ulen ucsum : Raw16} (hr : x.rest = [ulen.1, ulen.2, ucsum.1, ucsum.2] ++ y.bytes)
    (hy : y.WF) (swap : Bool) (k : Key) (rc : Int) (f : Option (Raw16 × Raw16))
    (h0 : ue ≠ 0) (h : portNum (if swap then x.sport else x.dport) = ue) :
    portsPart ue x.bytes 17 0 swap k rc f = .ok
      { rc := rc + 4, fragid := f, key := { k with proto := (132, 0), sport := (if swap then y.dport else y.sport), dport := (if swap then y.sport else y.dport) } } := by
  unfold portsPart
  have hy' : y.bytes.length = 4 + y.rest.length := by simp [L4.bytes]; omega
  have hl : x.bytes.length = 8 + y.bytes.length := by simp [L4.bytes, hr]; omega
  unfold L4.WF at hy
  have hb : (!inBounds 0 4 x.bytes.length) = false := by
    rw [Bool.not_eq_false', inBounds_iff, hl]; omega
  have hb2 : (!inBounds (0 + 8) 4 x.bytes.length) = false := by
    rw [Bool.not_eq_false', inBounds_iff, hl]; omega
  have r0 : rd16 x.bytes 0 = .ok x.sport := rfl
  have r1 : rd16 x.bytes (0 + 2) = .ok x.dport := rfl
  have r2 : rd16 x.bytes (0 + 8) = .ok y.sport := by unfold L4.bytes; rw [hr]; rfl
  have r3 : rd16 x.bytes (0 + 10) = .ok y.dport := by unfold L4.bytes; rw [hr]; rfl
  rw [hb, hb2]
  simp only [Bool.false_eq_true, if_false, r0, r1, r2, r3, Res.ok_bind]
  rw [if_pos ⟨h0, by trivial, by simpa only [ntohs_portNum] using h⟩]
  rfl

/-! ### IPv4 packets -/

theorem V4.frag_facts (x : V4) :
    (x.Unfragmented → ntohs x.flagsFrag % 16384 = 0) ∧
    (x.FirstFragment → ntohs x.flagsFrag % 16384 ≠ 0 ∧ ntohs x.flagsFrag % 8192 = 0) ∧
    (x.LaterFragment → ntohs x.flagsFrag % 16384 ≠ 0 ∧ ntohs x.flagsFrag % 8192 ≠ 0) := by
  unfold V4.Unfragmented V4.FirstFragment V4.LaterFragment V4.fragOffset V4.moreFragments ntohs
  refine ⟨?_, ?_, ?_⟩ <;> omega

theorem Spec.L4.ne_nil (x : L4) : x.bytes ≠ [] := by simp [L4.bytes]

theorem Spec.HasPorts.ne {p : UInt8} (h : HasPorts p) : p ≠ 1 ∧ p ≠ 58 ∧ p ≠ 44 ∧ ¬ IsExt p := by
  unfold IsExt
  rcases h with rfl | rfl | rfl <;> decide

/-- Plain TCP, UDP or SCTP over IPv4, unfragmented or first fragment. -/
theorem v4_ports (ue : Nat) {x : V4} {l : L4} (hx : x.WF) (hl : l.WF) (hp : x.payload = l.bytes) (hpr : HasPorts x.proto)
    (hue : ¬ (ue ≠ 0 ∧ x.proto = 17 ∧ portNum l.dport = ue)) :
    (x.Unfragmented → getHashKeyIpv4 ue x.bytes = .ok
      { rc := 0, key := flowKey x.src.mapped x.dst.mapped x.proto l.sport l.dport, fragid := none }) ∧
    (x.FirstFragment → getHashKeyIpv4 ue x.bytes = .ok
      { rc := 1, key := flowKey x.src.mapped x.dst.mapped x.proto l.sport l.dport, fragid := some (x.ident, (0, 0)) }) := by
  have hne := hpr.ne
  have hhp := (hasPorts_iff x.proto).2 hpr
  obtain ⟨f1, f2, _⟩ := V4.frag_facts x
  have hE := getHashKeyIpv4_eq ue hx (by rw [hp]; exact l.ne_nil)
  constructor
  · intro h
    have h0 := f1 h
    rw [hE]
    simp only [h0, ne_eq, not_true_eq_false, decide_false, Bool.false_and, Bool.false_eq_true, if_false, hne.1, hhp,
      Bool.not_true, hp]
    rw [ports_plain ue hl x.proto false _ _ _ (by simpa using hue)]
    rfl
  · intro h
    have h0 := f2 h
    rw [hE]
    simp only [h0.1, h0.2, ne_eq, not_false_eq_true, decide_true, Bool.not_true, Bool.and_false, Bool.false_eq_true,
      if_false, if_true, hne.1, hhp, hp]
    rw [ports_plain ue hl x.proto false _ _ _ (by simpa using hue)]
    rfl

/-- SCTP in UDP over IPv4. -/
theorem v4_encap (ue : Nat) {x : V4} {u s : L4} {ulen ucsum : Raw16} (hx : x.WF) (hs : s.WF) (hp : x.payload = u.bytes)
    (hr : u.rest = [ulen.1, ulen.2, ucsum.1, ucsum.2] ++ s.bytes) (hpr : x.proto = 17)
    (h0 : ue ≠ 0) (hue : portNum u.dport = ue) :
    (x.Unfragmented → getHashKeyIpv4 ue x.bytes = .ok
      { rc := 4, key := flowKey x.src.mapped x.dst.mapped 132 s.sport s.dport, fragid := none }) ∧
    (x.FirstFragment → getHashKeyIpv4 ue x.bytes = .ok
      { rc := 5, key := flowKey x.src.mapped x.dst.mapped 132 s.sport s.dport, fragid := some (x.ident, (0, 0)) }) := by
  have hhp : hasPorts 17 = true := by decide
  obtain ⟨f1, f2, _⟩ := V4.frag_facts x
  have hE := getHashKeyIpv4_eq ue hx (by rw [hp]; exact u.ne_nil)
  have h171 : (17 : UInt8) ≠ 1 := by decide
  constructor
  · intro h
    have h0' := f1 h
    rw [hE]
    simp only [h0', ne_eq, not_true_eq_false, decide_false, Bool.false_and, Bool.false_eq_true, if_false, hpr, h171, hhp,
      Bool.not_true, hp]
    rw [ports_encap ue hr hs false _ _ _ h0 (by simpa using hue)]
    rfl
  · intro h
    have h0' := f2 h
    rw [hE]
    simp only [h0'.1, h0'.2, ne_eq, not_false_eq_true, decide_true, Bool.not_true, Bool.and_false, Bool.false_eq_true,
      if_false, if_true, hpr, h171, hhp, hp]
    rw [ports_encap ue hr hs false _ _ _ h0 (by simpa using hue)]
    rfl

/-- A later IPv4 fragment. -/
theorem v4_later (ue : Nat) {x : V4} (hx : x.WF) (hp : x.payload ≠ []) (hf : x.LaterFragment) :
    getHashKeyIpv4 ue x.bytes = .ok { rc := 2, key := fragKey x.src.mapped x.dst.mapped x.ident (0, 0), fragid := none } := by
  have h0 := (V4.frag_facts x).2.2 hf
  rw [getHashKeyIpv4_eq ue hx hp]
  simp only [h0.1, h0.2, ne_eq, not_false_eq_true, decide_true, decide_false, Bool.not_false, Bool.and_true, if_true]
  rfl

/-- Return codes and fragment identification of `portsPart`. -/
theorem portsPart_rc {ue : Nat} {d : Packet} {proto : UInt8} {pos : Nat} {swap : Bool} {k : Key} {rc : Int}
    {f : Option (Raw16 × Raw16)} {p : Parsed} (h : portsPart ue d proto pos swap k rc f = .ok p) :
    p = Parsed.fail ∨ (p.fragid = f ∧ p.key.src = k.src ∧ p.key.dst = k.dst ∧ (p.rc = rc ∨ p.rc = rc + 4)) := by
  unfold portsPart at h
  split at h
  · left; simpa using h.symm
  · rename_i hb
    have hb' : pos + 4 < d.length := by simpa [inBounds_iff] using hb
    obtain ⟨a, ha⟩ := rd16_ok (d := d) (i := pos) (by omega)
    obtain ⟨b, hb⟩ := rd16_ok (d := d) (i := pos + 2) (by omega)
    rw [ha, hb] at h
    simp only [Res.ok_bind] at h
    by_cases hcond : ue ≠ 0 ∧ proto = 17 ∧ ntohs (if swap then a else b) = ue
    · rw [if_pos hcond] at h
      by_cases hc : (!inBounds (pos + 8) 4 d.length) = true
      · rw [if_pos hc] at h; left; simpa using h.symm
      · rw [if_neg hc] at h
        have hc' : pos + 8 + 4 < d.length := by simpa [inBounds_iff] using hc
        obtain ⟨a, ha⟩ := rd16_ok (d := d) (i := pos + 8) (by omega)
        obtain ⟨b, hb⟩ := rd16_ok (d := d) (i := pos + 10) (by omega)
        rw [ha, hb] at h
        simp only [Res.ok_bind, Res.pure_eq, Res.ok.injEq] at h
        subst h
        right; exact ⟨rfl, rfl, rfl, Or.inr rfl⟩
    · rw [if_neg hcond] at h
      simp only [Res.pure_eq, Res.ok.injEq] at h
      subst h
      right; exact ⟨rfl, rfl, rfl, Or.inl rfl⟩

/-- A first IPv4 fragment, whatever it carries, if it is not dropped. -/
theorem v4_first (ue : Nat) {x : V4} (hx : x.WF) (hp : x.payload ≠ []) (hf : x.FirstFragment) {p : Parsed}
    (h : getHashKeyIpv4 ue x.bytes = .ok p) (hrc : 0 ≤ p.rc) :
    p.rc % 2 = 1 ∧ p.rc % 4 = 1 ∧ p.fragid = some (x.ident, (0, 0)) ∧ p.key.src = x.src.mapped ∧ p.key.dst = x.dst.mapped := by
  have h0 := (V4.frag_facts x).2.1 hf
  rw [getHashKeyIpv4_eq ue hx hp] at h
  simp only [h0.1, h0.2, ne_eq, not_false_eq_true, decide_true, Bool.not_true, Bool.and_false, Bool.false_eq_true,
      if_false, if_true] at h
  split at h
  · obtain ⟨t, ht⟩ := rd_ok (d := x.payload) (i := 0) (List.length_pos_iff.2 hp)
    rw [ht] at h
    simp only [Res.ok_bind] at h
    split at h
    · simp only [Res.ok.injEq] at h; subst h; simp [Parsed.fail] at hrc
    · split at h
      · cases hr : rd16 x.payload 4 <;> rw [hr] at h <;> simp at h
        subst h; simp [Key.setId]
      · simp at h; subst h; simp
  · split at h
    · simp only [Res.ok.injEq] at h; subst h; simp
    · rcases portsPart_rc h with rfl | ⟨h1, h2, h3, h4⟩
      · simp [Parsed.fail] at hrc
      · refine ⟨?_, ?_, h1, h2, h3⟩ <;> rcases h4 with h4 | h4 <;> rw [h4] <;> decide

/-! ### IPv6 packets -/

theorem walkExt_upper (sf : Bool) (d : Packet) (t : UInt8) (pos : Nat) (h : ¬ IsExt t) :
    walkExt sf d (turns d) t pos = .ok (some (t, pos)) := by
  have : isExtensionHeader t = false := by
    cases hb : isExtensionHeader t
    · rfl
    · exact absurd ((isExt_iff t).1 hb) h
  unfold turns
  simp [walkExt, this]

theorem v6_ports (ue : Nat) {x : V6} {l : L4} (hx : x.WF) (hl : l.WF) (hp : x.payload = l.bytes) (hpr : HasPorts x.nxt)
    (hue : ¬ (ue ≠ 0 ∧ x.nxt = 17 ∧ portNum l.dport = ue)) :
    getHashKeyIpv6 ue x.bytes = .ok { rc := 0, key := flowKey x.src x.dst x.nxt l.sport l.dport, fragid := none } := by
  have hne := hpr.ne
  have hhp := (hasPorts_iff x.nxt).2 hpr
  rw [getHashKeyIpv6_eq ue hx (by rw [hp]; exact l.ne_nil), walkExt_upper _ _ _ _ hne.2.2.2]
  simp only [Res.ok_bind, hne.2.2.1, if_false]
  unfold ipv6Upper
  simp only [hne.2.1, if_false, hhp, Bool.not_true, Bool.false_eq_true, hp]
  rw [ports_plain ue hl x.nxt false _ _ _ (by simpa using hue)]
  rfl

theorem v6_encap (ue : Nat) {x : V6} {u s : L4} {ulen ucsum : Raw16} (hx : x.WF) (hs : s.WF) (hp : x.payload = u.bytes)
    (hr : u.rest = [ulen.1, ulen.2, ucsum.1, ucsum.2] ++ s.bytes) (hpr : x.nxt = 17)
    (h0 : ue ≠ 0) (hue : portNum u.dport = ue) :
    getHashKeyIpv6 ue x.bytes = .ok { rc := 4, key := flowKey x.src x.dst 132 s.sport s.dport, fragid := none } := by
  have hhp : hasPorts 17 = true := by decide
  have hne : HasPorts 17 := Or.inr (Or.inl rfl)
  rw [getHashKeyIpv6_eq ue hx (by rw [hp]; exact u.ne_nil), hpr, walkExt_upper _ _ _ _ hne.ne.2.2.2]
  simp only [Res.ok_bind, hne.ne.2.2.1, if_false]
  unfold ipv6Upper
  simp only [hne.ne.2.1, if_false, hhp, Bool.not_true, Bool.false_eq_true, hp]
  rw [ports_encap ue hr hs false _ _ _ h0 (by simpa using hue)]
  rfl

/-- Fragment header right after the IPv6 header. -/
theorem v6_frag_eq (ue : Nat) {x : V6} {f : FragHdr} {rest : List UInt8} (hx : x.WF) (hn : x.nxt = 44)
    (hp : x.payload = f.bytes ++ rest) :
    getHashKeyIpv6 ue x.bytes =
      (if f.offset = 0 then do
        let (htype, hdr) ← walkFrag x.bytes (turns x.bytes) 44 40
        ipv6Upper ue x.bytes x.src x.dst true (some (f.id0, f.id1)) htype hdr
      else .ok { rc := 2, key := fragKey x.src x.dst f.id0 f.id1, fragid := none }) := by
  have hne : x.payload ≠ [] := by rw [hp]; simp [FragHdr.bytes]
  rw [getHashKeyIpv6_eq ue hx hne, hn]
  have hw : walkExt true x.payload (turns x.payload) 44 0 = .ok (some (44, 0)) := by
    unfold turns; simp [walkExt, isExtensionHeader]
  have r2 : rd16 x.payload (0 + 2) = .ok f.offlg := by rw [hp]; rfl
  have r4 : rd16 x.payload (0 + 4) = .ok f.id0 := by rw [hp]; rfl
  have r6 : rd16 x.payload (0 + 6) = .ok f.id1 := by rw [hp]; rfl
  rw [hw]
  simp only [Res.ok_bind, if_true, r2, r4, r6]
  have : ntohs f.offlg / 8 = f.offset := rfl
  rw [this]
  rfl

theorem ipv6Upper_first {ue : Nat} {d : Packet} {sa da : List UInt8} {id : Raw16 × Raw16} {t : UInt8} {hdr : Nat} {p : Parsed}
    (h : ipv6Upper ue d sa da true (some id) t hdr = .ok p) (hrc : 0 ≤ p.rc) :
    p.rc % 2 = 1 ∧ p.rc % 4 = 1 ∧ p.fragid = some id ∧ p.key.src = sa ∧ p.key.dst = da := by
  unfold ipv6Upper at h
  dsimp only at h
  simp only [if_true] at h
  split at h
  · cases hr : rd d hdr <;> rw [hr] at h <;> simp only [Res.ok_bind, Res.ub_bind, Res.die_bind, Res.hang_bind, reduceCtorEq] at h
    split at h
    · simp only [Res.ok.injEq] at h; subst h; simp [Parsed.fail] at hrc
    · split at h
      · cases hr : rd16 d (hdr + 4) <;> rw [hr] at h <;> simp at h
        subst h; simp [Key.setId]
      · simp at h; subst h; simp
  · split at h
    · simp at h; subst h; simp
    · rcases portsPart_rc h with rfl | ⟨h1, h2, h3, h4⟩
      · simp [Parsed.fail] at hrc
      · refine ⟨?_, ?_, h1, h2, h3⟩ <;> rcases h4 with h4 | h4 <;> rw [h4] <;> decide

theorem v6_first (ue : Nat) {x : V6} {f : FragHdr} {rest : List UInt8} (hx : x.WF) (hn : x.nxt = 44)
    (hp : x.payload = f.bytes ++ rest) (hf : f.offset = 0) {p : Parsed}
    (h : getHashKeyIpv6 ue x.bytes = .ok p) (hrc : 0 ≤ p.rc) :
    p.rc % 2 = 1 ∧ p.rc % 4 = 1 ∧ p.fragid = some (f.id0, f.id1) ∧ p.key.src = x.src ∧ p.key.dst = x.dst := by
  rw [v6_frag_eq ue hx hn hp, if_pos hf] at h
  cases hw : walkFrag x.bytes (turns x.bytes) 44 40 with
  | ok w =>
    rw [hw] at h
    exact ipv6Upper_first h hrc
  | _ => rw [hw] at h; simp at h

end Nfqlb
