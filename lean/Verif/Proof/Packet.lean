import Verif.Spec.Packet

set_option autoImplicit false

namespace Nfqlb

open Spec

theorem rd_append_right (a b : Packet) (k : Nat) : rd (a ++ b) (a.length + k) = rd b k := by
  unfold rd; rw [List.getElem?_append_right (by omega)]; simp

theorem rd16_append_right (a b : Packet) (k : Nat) : rd16 (a ++ b) (a.length + k) = rd16 b k := by
  unfold rd16; rw [rd_append_right, Nat.add_assoc, rd_append_right]

theorem rdN_append_right (a b : Packet) (k n : Nat) : rdN (a ++ b) (a.length + k) n = rdN b k n := by
  unfold rdN
  rw [List.drop_append]
  have h1 : List.drop (a.length + k) a = [] := List.drop_eq_nil_of_le (by omega)
  have h2 : a.length + k - a.length = k := by omega
  rw [h1, h2]
  by_cases h : k + n ≤ b.length
  · rw [if_pos (by simp; omega), if_pos h]; rfl
  · rw [if_neg (by simp; omega), if_neg h]

theorem rd_ok {d : Packet} {i : Nat} (h : i < d.length) : ∃ b, rd d i = .ok b := by
  unfold rd; rw [List.getElem?_eq_getElem h]; exact ⟨_, rfl⟩

/-- Positions relative to a prefix. -/
theorem portsPart_append (ue : Nat) (a b : Packet) (proto : UInt8) (pos : Nat) (swap : Bool) (k : Key) (rc : Int)
    (f : Option (Raw16 × Raw16)) :
    portsPart ue (a ++ b) proto (a.length + pos) swap k rc f = portsPart ue b proto pos swap k rc f := by
  unfold portsPart
  have hb : ∀ p o, inBounds (a.length + p) o (a ++ b).length = inBounds p o b.length := by
    intro p o; unfold inBounds; rw [List.length_append]; congr 1; apply propext; omega
  have e1 : a.length + pos + 8 = a.length + (pos + 8) := by omega
  have e2 : a.length + pos + 2 = a.length + (pos + 2) := by omega
  have e3 : a.length + pos + 10 = a.length + (pos + 10) := by omega
  rw [hb, e1, hb, e2, e3, rd16_append_right, rd16_append_right, rd16_append_right, rd16_append_right]

theorem innerV4_append (ue : Nat) (a b : Packet) (ih : Nat) :
    getInnerHashKeyIpv4 ue (a ++ b) (a.length + ih) = getInnerHashKeyIpv4 ue b ih := by
  unfold getInnerHashKeyIpv4
  have hb : ∀ p o, inBounds (a.length + p) o (a ++ b).length = inBounds p o b.length := by
    intro p o; unfold inBounds; rw [List.length_append]; congr 1; apply propext; omega
  have e1 : a.length + ih + 8 = a.length + (ih + 8) := by omega
  have e2 : ∀ k, a.length + (ih + 8) + k = a.length + (ih + 8 + k) := by intro k; omega
  simp only [e1, e2, hb, rd_append_right, rdN_append_right, portsPart_append]

theorem walkExt_append (sf : Bool) (a b : Packet) : ∀ (fuel : Nat) (h : UInt8) (hdr : Nat),
    walkExt sf (a ++ b) fuel h (a.length + hdr) = (do
      let r ← walkExt sf b fuel h hdr
      return r.map (fun x => (x.1, a.length + x.2))) := by
  have hb : ∀ p o, inBounds (a.length + p) o (a ++ b).length = inBounds p o b.length := by
    intro p o; unfold inBounds; rw [List.length_append]; congr 1; apply propext; omega
  intro fuel
  induction fuel with
  | zero => intro h hdr; rfl
  | succ fuel ih =>
    intro h hdr
    unfold walkExt
    rw [hb]
    split
    · rfl
    · split
      · rfl
      · split
        · rfl
        · rw [rd_append_right, Nat.add_assoc, rd_append_right]
          cases rd b hdr <;> simp
          cases rd b (hdr + 1) <;> simp
          rename_i nxt l
          by_cases hl : l = 0
          · simp [hl]
          · simp only [hl, if_false]
            have := ih nxt (hdr + l.toNat * 8)
            rw [Nat.add_assoc, this]
            simp

theorem hasPorts_iff (p : UInt8) : hasPorts p = true ↔ HasPorts p := by
  unfold hasPorts HasPorts; simp [or_assoc]

theorem mapped4_addr (a : Addr4) : mapped4 a.bytes = a.mapped := rfl

/-! ### IPv4 -/

theorem V4.fixed_len (x : V4) : x.bytes.length = 20 + x.opts.length + x.payload.length := by
  simp [V4.bytes]; omega

theorem V4.split (x : V4) : ∃ pre : Packet, pre.length = 20 + x.opts.length ∧ x.bytes = pre ++ x.payload := by
  refine ⟨x.bytes.take (20 + x.opts.length), ?_, ?_⟩
  · rw [List.length_take, V4.fixed_len]; omega
  · unfold V4.bytes
    rw [← List.append_assoc, List.take_left' (by simp; omega)]

theorem V4.ihl {x : V4} (h : x.WF) : (UInt8.ofNat (4 * 16 + (5 + x.opts.length / 4))).toNat % 16 = 5 + x.opts.length / 4 := by
  obtain ⟨h1, h2⟩ := h
  rw [UInt8.toNat_ofNat']
  omega

/-- Reading the fixed part of an IPv4 header. -/
theorem getHashKeyIpv4_eq (ue : Nat) {x : V4} (h : x.WF) (hp : x.payload ≠ []) :
    getHashKeyIpv4 ue x.bytes =
      (let addrs : Key := { Key.zero with src := x.src.mapped, dst := x.dst.mapped }
       let frag := decide (ntohs x.flagsFrag % 16384 ≠ 0)
       let first := decide (ntohs x.flagsFrag % 8192 = 0)
       if frag && !first then
         .ok { rc := 2, key := addrs.setId x.ident (0, 0) (0, 0) (0, 0), fragid := none }
       else
        let rc : Int := if frag then 1 else 0
        let fragid := if frag then some (x.ident, ((0, 0) : Raw16)) else none
        if x.proto = 1 then do
          let t ← rd x.payload 0
          if t = 3 || t = 4 || t = 5 || t = 11 then
            if frag then .ok Parsed.fail
            else getInnerHashKeyIpv4 ue x.payload 0
          else if t = 8 then do
            let id ← rd16 x.payload 4
            return { rc := rc + 16, key := { addrs.setId id (0, 0) (0, 0) (0, 0) with proto := (1, 0) }, fragid := fragid }
          else
            return { rc := rc + 16, key := { addrs with proto := (1, 0) }, fragid := fragid }
        else
          let k := { addrs with proto := (x.proto, 0) }
          if !hasPorts x.proto then .ok { rc := rc + 32, key := k, fragid := fragid }
          else portsPart ue x.payload x.proto 0 false k rc fragid) := by
  have hlen : 0 < x.payload.length := List.length_pos_iff.2 hp
  have hb : inBounds 0 20 x.bytes.length = true := by
    unfold inBounds; rw [V4.fixed_len]; simp; omega
  have r0 : rd x.bytes 0 = .ok (UInt8.ofNat (4 * 16 + (5 + x.opts.length / 4))) := rfl
  have r6 : rd16 x.bytes 6 = .ok x.flagsFrag := rfl
  have r4 : rd16 x.bytes 4 = .ok x.ident := rfl
  have r9 : rd x.bytes 9 = .ok x.proto := rfl
  have rs : rdN x.bytes 12 4 = .ok x.src.bytes := by
    unfold rdN; rw [if_pos (by rw [V4.fixed_len]; omega)]; rfl
  have rD : rdN x.bytes 16 4 = .ok x.dst.bytes := by
    unfold rdN; rw [if_pos (by rw [V4.fixed_len]; omega)]; rfl
  obtain ⟨pre, hpre, hsplit⟩ := V4.split x
  have hoff : 4 * (5 + x.opts.length / 4) = pre.length + 0 := by rw [hpre]; have := h.1; omega
  unfold getHashKeyIpv4
  rw [hb]
  simp only [Bool.not_true, Bool.false_eq_true, if_false, r0, Res.ok_bind, V4.ihl h, r6, r4, r9, rs, rD,
    mapped4_addr]
  rw [if_neg (by omega), hoff]
  have e4 : pre.length + 0 + 4 = pre.length + 4 := by omega
  rw [e4]
  simp only [hsplit, rd_append_right, rd16_append_right, innerV4_append, portsPart_append]
  rfl

/-! ### The loops over extension headers -/

theorem inBounds_iff {p o n : Nat} : inBounds p o n = true ↔ p + o < n := by unfold inBounds; simp

theorem not_inBounds_iff {p o n : Nat} : (!inBounds p o n) = true ↔ n ≤ p + o := by unfold inBounds; simp

/-- The result does not depend on the bound on the number of turns, once that exceeds the remaining length. -/
theorem walkExt_fuel (sf : Bool) (d : Packet) : ∀ (f1 f2 : Nat) (h : UInt8) (hdr : Nat),
    0 < f1 → 0 < f2 → d.length < f1 + hdr → d.length < f2 + hdr → walkExt sf d f1 h hdr = walkExt sf d f2 h hdr := by
  intro f1
  induction f1 with
  | zero => intro f2 h hdr h1; omega
  | succ f1 ih =>
    intro f2 h hdr _ h2 l1 l2
    cases f2 with
    | zero => omega
    | succ f2 =>
      unfold walkExt
      split
      · rfl
      · split
        · rfl
        · split
          · rfl
          · rename_i hb
            have hb' : hdr + 2 < d.length := by
              simpa [inBounds_iff] using hb
            obtain ⟨a, ha⟩ := rd_ok (d := d) (i := hdr) (by omega)
            obtain ⟨l, hl⟩ := rd_ok (d := d) (i := hdr + 1) (by omega)
            rw [ha, hl]
            simp only [Res.ok_bind]
            split
            · rfl
            · rename_i hl0
              have : 0 < l.toNat := by
                rcases Nat.eq_zero_or_pos l.toNat with h | h
                · exact absurd (UInt8.toNat_inj.1 (by simpa using h)) hl0
                · exact h
              by_cases hend : d.length ≤ hdr + l.toNat * 8
              · by_cases hz1 : f1 = 0
                · omega
                · by_cases hz2 : f2 = 0
                  · omega
                  · exact ih f2 a _ (by omega) (by omega) (by omega) (by omega)
              · exact ih f2 a _ (by omega) (by omega) (by omega) (by omega)

/-- The checked loop reads only inside the packet and ends. -/
theorem walkExt_ok (sf : Bool) (d : Packet) : ∀ (f : Nat) (h : UInt8) (hdr : Nat),
    0 < f → d.length < f + hdr → ∃ r, walkExt sf d f h hdr = .ok r := by
  intro f
  induction f with
  | zero => intro h hdr h0; omega
  | succ f ih =>
    intro h hdr _ hl
    unfold walkExt
    split
    · exact ⟨_, rfl⟩
    · split
      · exact ⟨_, rfl⟩
      · split
        · exact ⟨_, rfl⟩
        · rename_i hb
          have hb' : hdr + 2 < d.length := by simpa [inBounds_iff] using hb
          obtain ⟨a, ha⟩ := rd_ok (d := d) (i := hdr) (by omega)
          obtain ⟨l, hl⟩ := rd_ok (d := d) (i := hdr + 1) (by omega)
          rw [ha, hl]
          simp only [Res.ok_bind]
          split
          · exact ⟨_, rfl⟩
          · rename_i hl0
            have : 0 < l.toNat := by
              rcases Nat.eq_zero_or_pos l.toNat with h | h
              · exact absurd (UInt8.toNat_inj.1 (by simpa using h)) hl0
              · exact h
            exact ih a _ (by omega) (by omega)

theorem walkExt_turns_ok (sf : Bool) (d : Packet) (h : UInt8) (hdr : Nat) : ∃ r, walkExt sf d (turns d) h hdr = .ok r :=
  walkExt_ok sf d _ h hdr (by unfold turns; omega) (by unfold turns; omega)

theorem rd16_ok {d : Packet} {i : Nat} (h : i + 1 < d.length) : ∃ b, rd16 d i = .ok b := by
  obtain ⟨a, ha⟩ := rd_ok (d := d) (i := i) (by omega)
  obtain ⟨b, hb⟩ := rd_ok (d := d) (i := i + 1) h
  unfold rd16; rw [ha, hb]; exact ⟨_, rfl⟩

theorem rdN_ok {d : Packet} {i n : Nat} (h : i + n ≤ d.length) : ∃ b, rdN d i n = .ok b := by
  unfold rdN; rw [if_pos h]; exact ⟨_, rfl⟩

theorem portsPart_ok (ue : Nat) (d : Packet) (proto : UInt8) (pos : Nat) (swap : Bool) (k : Key) (rc : Int)
    (f : Option (Raw16 × Raw16)) : ∃ r, portsPart ue d proto pos swap k rc f = .ok r := by
  unfold portsPart
  split
  · exact ⟨_, rfl⟩
  · rename_i hb
    have hb' : pos + 4 < d.length := by simpa [inBounds_iff] using hb
    obtain ⟨a, ha⟩ := rd16_ok (d := d) (i := pos) (by omega)
    obtain ⟨b, hb⟩ := rd16_ok (d := d) (i := pos + 2) (by omega)
    rw [ha, hb]
    simp only [Res.ok_bind]
    by_cases hcond : ue ≠ 0 ∧ proto = 17 ∧ ntohs (if swap then a else b) = ue
    · rw [if_pos hcond]
      by_cases hc : (!inBounds (pos + 8) 4 d.length) = true
      · rw [if_pos hc]; exact ⟨_, rfl⟩
      · rw [if_neg hc]
        have hc' : pos + 8 + 4 < d.length := by simpa [inBounds_iff] using hc
        obtain ⟨a, ha⟩ := rd16_ok (d := d) (i := pos + 8) (by omega)
        obtain ⟨b, hb⟩ := rd16_ok (d := d) (i := pos + 10) (by omega)
        rw [ha, hb]
        exact ⟨_, rfl⟩
    · rw [if_neg hcond]; exact ⟨_, rfl⟩

theorem innerV4_ok (ue : Nat) (d : Packet) (ih : Nat) : ∃ r, getInnerHashKeyIpv4 ue d ih = .ok r := by
  unfold getInnerHashKeyIpv4
  dsimp only
  split
  · exact ⟨_, rfl⟩
  · rename_i hb
    have hb' : ih + 8 + 20 < d.length := by simpa [inBounds_iff] using hb
    obtain ⟨a, ha⟩ := rd_ok (d := d) (i := ih + 8) (by omega)
    obtain ⟨b, hb⟩ := rdN_ok (d := d) (i := ih + 8 + 12) (n := 4) (by omega)
    obtain ⟨c, hc⟩ := rdN_ok (d := d) (i := ih + 8 + 16) (n := 4) (by omega)
    obtain ⟨e, he⟩ := rd_ok (d := d) (i := ih + 8 + 9) (by omega)
    simp only [ha, hb, hc, he, Res.ok_bind]
    split
    · exact ⟨_, rfl⟩
    · split
      · exact ⟨_, rfl⟩
      · exact portsPart_ok ..

theorem innerV6_ok (ue : Nat) (d : Packet) (ih : Nat) : ∃ r, getInnerHashKeyIpv6 ue d ih = .ok r := by
  unfold getInnerHashKeyIpv6
  dsimp only
  split
  · exact ⟨_, rfl⟩
  · rename_i hb
    have hb' : ih + 8 + 40 < d.length := by simpa [inBounds_iff] using hb
    obtain ⟨a, ha⟩ := rd_ok (d := d) (i := ih + 8 + 6) (by omega)
    obtain ⟨b, hb⟩ := rdN_ok (d := d) (i := ih + 8 + 8) (n := 16) (by omega)
    obtain ⟨c, hc⟩ := rdN_ok (d := d) (i := ih + 8 + 24) (n := 16) (by omega)
    obtain ⟨w, hw⟩ := walkExt_turns_ok false d a (ih + 8 + 40)
    simp only [ha, hb, hc, hw, Res.ok_bind]
    cases w with
    | none => exact ⟨_, rfl⟩
    | some w =>
      obtain ⟨t, hdr⟩ := w
      dsimp only
      split
      · exact ⟨_, rfl⟩
      · exact portsPart_ok ..

theorem innerV6_append (ue : Nat) (a b : Packet) (ih : Nat) :
    getInnerHashKeyIpv6 ue (a ++ b) (a.length + ih) = getInnerHashKeyIpv6 ue b ih := by
  unfold getInnerHashKeyIpv6
  have hb : ∀ p o, inBounds (a.length + p) o (a ++ b).length = inBounds p o b.length := by
    intro p o; unfold inBounds; rw [List.length_append]; congr 1; apply propext; omega
  have e1 : a.length + ih + 8 = a.length + (ih + 8) := by omega
  have e2 : ∀ k, a.length + (ih + 8) + k = a.length + (ih + 8 + k) := by intro k; omega
  have hw : ∀ n, walkExt false (a ++ b) (turns (a ++ b)) n (a.length + (ih + 8 + 40)) = (do
      let r ← walkExt false b (turns b) n (ih + 8 + 40)
      return r.map (fun x => (x.1, a.length + x.2))) := by
    intro n
    rw [walkExt_append, walkExt_fuel false b (turns (a ++ b)) (turns b) n (ih + 8 + 40) (by unfold turns; omega)
      (by unfold turns; omega) (by unfold turns; simp; omega) (by unfold turns; omega)]
  simp only [e1, e2, hb, rd_append_right, rdN_append_right, hw]
  split
  · rfl
  · cases rd b (ih + 8 + 6) <;> simp
    rename_i n
    obtain ⟨w, hw⟩ := walkExt_turns_ok false b n (ih + 8 + 40)
    rw [hw]
    cases w with
    | none => simp
    | some w => simp [portsPart_append]

theorem ipv6Upper_append (ue : Nat) (a b : Packet) (s d : List UInt8) (frag : Bool) (f : Option (Raw16 × Raw16))
    (t : UInt8) (hdr : Nat) :
    ipv6Upper ue (a ++ b) s d frag f t (a.length + hdr) = ipv6Upper ue b s d frag f t hdr := by
  unfold ipv6Upper
  simp only [rd_append_right, Nat.add_assoc, rd16_append_right, innerV6_append, portsPart_append]

theorem ipv6Upper_ok (ue : Nat) (d : Packet) (sa da : List UInt8) (frag : Bool) (f : Option (Raw16 × Raw16))
    (t : UInt8) (hdr : Nat) (h : t = 58 → hdr + 6 ≤ d.length) : ∃ r, ipv6Upper ue d sa da frag f t hdr = .ok r := by
  unfold ipv6Upper
  dsimp only
  by_cases ht : t = 58
  · have := h ht
    obtain ⟨a, ha⟩ := rd_ok (d := d) (i := hdr) (by omega)
    obtain ⟨b, hb⟩ := rd16_ok (d := d) (i := hdr + 4) (by omega)
    simp only [ht, if_true, ha, hb, Res.ok_bind]
    split
    · split
      · exact ⟨_, rfl⟩
      · exact innerV6_ok ..
    · split <;> exact ⟨_, rfl⟩
  · simp only [ht, if_false]
    split
    · exact ⟨_, rfl⟩
    · exact portsPart_ok ..

/-! ### IPv6 -/

theorem V6.len {x : V6} (h : x.WF) : x.bytes.length = 40 + x.payload.length := by
  obtain ⟨h1, h2, h3⟩ := h
  simp [V6.bytes, h1, h2, h3]; omega

theorem V6.split {x : V6} (h : x.WF) : ∃ pre : Packet, pre.length = 40 ∧ x.bytes = pre ++ x.payload := by
  obtain ⟨h1, h2, h3⟩ := h
  refine ⟨x.vtf ++ ([x.plen.1, x.plen.2, x.nxt, x.hlim] ++ (x.src ++ x.dst)), by simp [h1, h2, h3], ?_⟩
  simp [V6.bytes]

theorem V6.rd_nxt {x : V6} (h : x.WF) : rd x.bytes 6 = .ok x.nxt := by
  unfold V6.bytes
  have := rd_append_right x.vtf ([x.plen.1, x.plen.2, x.nxt, x.hlim] ++ (x.src ++ (x.dst ++ x.payload))) 2
  rw [h.1] at this
  rw [this]; rfl

theorem rdN_prefix (a b : Packet) (n : Nat) (h : a.length = n) : rdN (a ++ b) 0 n = .ok a := by
  unfold rdN; rw [if_pos (by simp; omega)]; simp [List.take_left' h]

theorem V6.rd_src {x : V6} (h : x.WF) : rdN x.bytes 8 16 = .ok x.src := by
  have e : x.bytes = (x.vtf ++ [x.plen.1, x.plen.2, x.nxt, x.hlim]) ++ (x.src ++ (x.dst ++ x.payload)) := by
    simp [V6.bytes]
  have := rdN_append_right (x.vtf ++ [x.plen.1, x.plen.2, x.nxt, x.hlim]) (x.src ++ (x.dst ++ x.payload)) 0 16
  rw [← e, rdN_prefix _ _ _ h.2.1] at this
  simpa [h.1] using this

theorem V6.rd_dst {x : V6} (h : x.WF) : rdN x.bytes 24 16 = .ok x.dst := by
  have e : x.bytes = (x.vtf ++ [x.plen.1, x.plen.2, x.nxt, x.hlim] ++ x.src) ++ (x.dst ++ x.payload) := by
    simp [V6.bytes]
  have := rdN_append_right (x.vtf ++ [x.plen.1, x.plen.2, x.nxt, x.hlim] ++ x.src) (x.dst ++ x.payload) 0 16
  rw [← e, rdN_prefix _ _ _ h.2.2] at this
  simpa [h.1, h.2.1] using this

/-- Reading the fixed part of an IPv6 header. -/
theorem getHashKeyIpv6_eq (ue : Nat) {x : V6} (h : x.WF) (hp : x.payload ≠ []) :
    getHashKeyIpv6 ue x.bytes = (do
      let r ← walkExt true x.payload (turns x.payload) x.nxt 0
      match r with
      | none => .ok Parsed.fail
      | some (htype, hdr) =>
        if htype = 44 then do
          let offlg ← rd16 x.payload (hdr + 2)
          let id0 ← rd16 x.payload (hdr + 4)
          let id1 ← rd16 x.payload (hdr + 6)
          if ntohs offlg / 8 = 0 then do
            let (htype, hdr) ← walkFrag x.bytes (turns x.bytes) htype (40 + hdr)
            ipv6Upper ue x.bytes x.src x.dst true (some (id0, id1)) htype hdr
          else
            return { rc := 2, key := { Key.zero with src := x.src, dst := x.dst }.setId id0 id1 (0, 0) (0, 0), fragid := none }
        else ipv6Upper ue x.payload x.src x.dst false none htype hdr) := by
  have hlen : 0 < x.payload.length := List.length_pos_iff.2 hp
  obtain ⟨pre, hpre, hsplit⟩ := V6.split h
  unfold getHashKeyIpv6
  have hb : inBounds 0 40 x.bytes.length = true := by rw [inBounds_iff, V6.len h]; omega
  have hw : walkExt true x.bytes (turns x.bytes) x.nxt 40 = (do
      let r ← walkExt true x.payload (turns x.payload) x.nxt 0
      return r.map (fun y => (y.1, pre.length + y.2))) := by
    rw [hsplit]
    have := walkExt_append true pre x.payload (turns (pre ++ x.payload)) x.nxt 0
    rw [hpre] at this
    rw [this, walkExt_fuel true x.payload _ (turns x.payload) x.nxt 0 (by unfold turns; omega)
      (by unfold turns; omega) (by unfold turns; simp; omega) (by unfold turns; omega), hpre]
  rw [hb]
  simp only [Bool.not_true, Bool.false_eq_true, if_false, V6.rd_nxt h, V6.rd_src h, V6.rd_dst h, hw, Res.ok_bind]
  obtain ⟨w, hww⟩ := walkExt_turns_ok true x.payload x.nxt 0
  rw [hww]
  cases w with
  | none => rfl
  | some w =>
    obtain ⟨t, hdr⟩ := w
    simp only [Res.ok_bind, Res.pure_eq, Option.map]
    have e16 : ∀ k, rd16 x.bytes (pre.length + hdr + k) = rd16 x.payload (hdr + k) := by
      intro k; rw [hsplit, Nat.add_assoc, rd16_append_right]
    have eu : ipv6Upper ue x.bytes x.src x.dst false none t (pre.length + hdr)
        = ipv6Upper ue x.payload x.src x.dst false none t hdr := by
      rw [hsplit, ipv6Upper_append]
    rw [e16, e16, e16, eu, hpre]

end Nfqlb
