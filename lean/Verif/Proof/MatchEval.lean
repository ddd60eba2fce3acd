import Verif.Proof.Match
import Verif.Proof.PacketKeys

/-! Byte-match expressions: evaluation. -/

set_option autoImplicit false

namespace Nfqlb.Match

open Nfqlb.Spec Nfqlb.Spec.BM Nfqlb.CText

/-! ### Numbers in plain expressions -/

theorem clamp_small {v : Nat} (h : v < 4294967296) : clamp v = v := by
  unfold clamp u32; rw [if_neg (by omega)]; omega

theorem cnum_plain {ds : List Char} (h1 : ds.head? = some '0' → ds = ['0']) (h2 : positional 10 ds < 4294967296) : cnum ds = positional 10 ds := by
  by_cases h : ds.head? = some '0'
  · rw [h1 h]; decide
  · unfold cnum; rw [if_neg h, clamp_small h2]

theorem plain_item {e : Expr} (hp : e.Plain) :
    itemOf e = ⟨e.proto.num.toNat, e.off, e.nbytes, (match e.mask with | none => 0 | some m => positional 16 m.ds), e.value.value⟩ := by
  obtain ⟨h1, h2, h3, h4, h5⟩ := hp
  unfold itemOf
  have hv : cval e.value = e.value.value := by
    cases hv : e.value with
    | dec ds => rw [hv] at h4; exact cnum_plain (h5 ds hv) h4
    | hex ds => rw [hv] at h4; exact clamp_small h4
  have hm : cmask e.mask = (match e.mask with | none => 0 | some m => positional 16 m.ds) := by
    cases hm : e.mask with
    | none => rfl
    | some m => exact clamp_small (h3 m hm).2
  rw [cnum_plain h1 h2, hv, hm]; rfl

theorem addAll_exprs : ∀ (es : List Expr) (m : Match), (∀ e ∈ es, e.WF = true ∧ e.text.length ≤ 64 ∧ u32 (cnum e.offset + e.nbytes) ≤ e.proto.hlen) →
    matchAddAll m (es.map Expr.text) = .ok (some (m ++ es.map itemOf))
  | [], m, _ => by simp [matchAddAll]
  | e :: es, m, h => by
    obtain ⟨h1, h2, h3⟩ := h e (by simp)
    rw [List.map_cons]
    unfold matchAddAll matchAdd
    rw [parse_text e h1 h2, if_neg (by omega)]
    simp only [Res.ok_bind, Res.pure_eq]
    rw [addAll_exprs es _ (fun x hx => h x (by simp [hx]))]
    simp

theorem u32_small {x : Nat} (h : x < 4294967296) : u32 x = x := by unfold u32; omega

theorem plain_in {e : Expr} (hp : e.Plain) (hi : e.InHeader) : u32 (cnum e.offset + e.nbytes) ≤ e.proto.hlen := by
  rw [cnum_plain hp.1 hp.2.1]
  show u32 (e.off + e.nbytes) ≤ _
  unfold Expr.InHeader at hi
  have : e.proto.hlen ≤ 20 := by cases e.proto <;> decide
  rw [u32_small (by omega)]; exact hi

/-! ### Reading -/

theorem rd_mid (pre hdr rest : Packet) (k : Nat) (b : UInt8) (h : hdr[k]? = some b) : rd (pre ++ (hdr ++ rest)) (pre.length + k) = .ok b := by
  rw [rd_append_right]
  have hk := (List.getElem?_eq_some_iff.1 h).1
  unfold rd
  rw [List.getElem?_append_left hk, h]

theorem drop_get {hdr : List UInt8} {k : Nat} (h : k < hdr.length) : hdr.drop k = hdr[k] :: hdr.drop (k + 1) := List.drop_eq_getElem_cons h

theorem rd_hdr (pre hdr rest : Packet) (k : Nat) (h : k < hdr.length) : rd (pre ++ (hdr ++ rest)) (pre.length + k) = .ok hdr[k] :=
  rd_mid pre hdr rest k _ (List.getElem?_eq_getElem h)

theorem readNumber_hdr (pre hdr rest : Packet) (off n : Nat) (hn : n = 1 ∨ n = 2 ∨ n = 4) (h : off + n ≤ hdr.length) :
    readNumber (pre ++ (hdr ++ rest)) (pre.length + off) n = .ok (bigEndian ((hdr.drop off).take n)) := by
  rcases hn with rfl | rfl | rfl
  · have ht : (hdr.drop off).take 1 = [hdr[off]] := by rw [drop_get (by omega)]; rfl
    unfold readNumber
    rw [rd_hdr pre hdr rest off (by omega), ht]
    simp [bigEndian]
  · have ht : (hdr.drop off).take 2 = [hdr[off], hdr[off + 1]] := by rw [drop_get (k := off) (by omega), drop_get (k := off + 1) (by omega)]; rfl
    unfold readNumber
    have e1 : pre.length + off + 1 = pre.length + (off + 1) := by omega
    rw [e1, rd_hdr pre hdr rest off (by omega), rd_hdr pre hdr rest (off + 1) (by omega), ht]
    simp [bigEndian]
  · have ht : (hdr.drop off).take 4 = [hdr[off], hdr[off + 1], hdr[off + 2], hdr[off + 3]] := by
      rw [drop_get (k := off) (by omega), drop_get (k := off + 1) (by omega), drop_get (k := off + 2) (by omega), drop_get (k := off + 3) (by omega)]; rfl
    unfold readNumber
    have e1 : pre.length + off + 1 = pre.length + (off + 1) := by omega
    have e2 : pre.length + off + 2 = pre.length + (off + 2) := by omega
    have e3 : pre.length + off + 3 = pre.length + (off + 3) := by omega
    rw [e1, e2, e3, rd_hdr pre hdr rest off (by omega), rd_hdr pre hdr rest (off + 1) (by omega), rd_hdr pre hdr rest (off + 2) (by omega), rd_hdr pre hdr rest (off + 3) (by omega), ht]
    simp [bigEndian]
    omega

theorem num_inj {p q : Proto} : p.num = q.num ↔ p = q := by cases p <;> cases q <;> decide
theorem num_toNat_inj {p : Proto} {n : UInt8} : p.num.toNat = n.toNat ↔ p.num = n := UInt8.toNat_inj

theorem matchesItem_expr {e : Expr} (hw : e.WF = true) (hp : e.Plain) (hi : e.InHeader) (pre hdr rest : Packet) (hl : hdr.length = e.proto.hlen) :
    matchesItem (itemOf e) (pre ++ (hdr ++ rest)) pre.length = .ok (decide (e.Holds hdr)) := by
  unfold matchesItem
  rw [plain_item hp]
  dsimp only
  unfold Expr.InHeader at hi
  rw [readNumber_hdr pre hdr rest e.off e.nbytes ((wf_iff e).1 hw).2.1 (by omega), Res.ok_bind, Res.pure_eq]
  congr 1
  apply decide_eq_decide.2
  unfold Expr.Holds
  have h3 := hp.2.2.1
  generalize e.mask = mk at h3
  cases mk with
  | none => simp
  | some m =>
    have := (h3 m rfl).1
    simp [show positional 16 m.ds ≠ 0 by omega]

theorem matchItems_exprs (pr : Proto) (pre hdr rest : Packet) (hl : hdr.length = pr.hlen) : ∀ (es : List Expr), (∀ e ∈ es, e.WF = true ∧ e.Plain ∧ e.InHeader) →
    matchItems pr.num.toNat (pre ++ (hdr ++ rest)) pre.length (es.map itemOf) = .ok (decide (AllHold es pr.num hdr))
  | [], _ => by simp [matchItems, AllHold]
  | e :: es, h => by
    obtain ⟨h1, h2, h3⟩ := h e (by simp)
    have ih := matchItems_exprs pr pre hdr rest hl es (fun x hx => h x (by simp [hx]))
    rw [List.map_cons]
    unfold matchItems
    have hpr : (itemOf e).proto = e.proto.num.toNat := rfl
    rw [hpr]
    by_cases hq : e.proto.num = pr.num
    · have hq' := num_inj.1 hq
      rw [if_pos (num_toNat_inj.2 hq), matchesItem_expr h1 h2 h3 pre hdr rest (by rw [hl, hq']), Res.ok_bind]
      by_cases hh : e.Holds hdr
      · simp only [hh, decide_true, if_true]
        rw [ih]; congr 1
        apply decide_eq_decide.2; simp only [AllHold, List.mem_cons, forall_eq_or_imp]
        exact ⟨fun h => ⟨fun _ => hh, h⟩, fun h => h.2⟩
      · simp only [hh, decide_false, Bool.false_eq_true, if_false, Res.pure_eq]
        congr 1
        symm
        simp only [AllHold, List.mem_cons, decide_eq_false_iff_not, forall_eq_or_imp]
        intro h; exact hh (h.1 hq)
    · rw [if_neg (fun h => hq (num_toNat_inj.1 h)), ih]; congr 1
      apply decide_eq_decide.2; simp only [AllHold, List.mem_cons, forall_eq_or_imp]
      exact ⟨fun h => ⟨fun he => absurd he hq, h⟩, fun h => h.2⟩

theorem headerlength_num (p : Proto) : headerlength p.num.toNat = p.hlen := by cases p <;> rfl

theorem l4_v4 {x : V4} (hx : x.WF) (p : Proto) (hp : x.proto = p.num) (hl : p.hlen < x.payload.length) :
    l4headerIpv4 x.bytes = .ok (some (p.num, 20 + x.opts.length)) := by
  unfold l4headerIpv4
  have hb : inBounds 0 20 x.bytes.length = true := by rw [inBounds_iff, V4.fixed_len]; omega
  have r0 : rd x.bytes 0 = .ok (UInt8.ofNat (4 * 16 + (5 + x.opts.length / 4))) := rfl
  have r9 : rd x.bytes 9 = .ok x.proto := rfl
  rw [hb]
  simp only [Bool.not_true, Bool.false_eq_true, if_false, r0, r9, Res.ok_bind, V4.ihl hx, hp, headerlength_num]
  have e : (5 + x.opts.length / 4) * 4 = 20 + x.opts.length := by have := hx.1; omega
  rw [e]
  have hb2 : inBounds (20 + x.opts.length) p.hlen x.bytes.length = true := by rw [inBounds_iff, V4.fixed_len]; omega
  rw [hb2]; rfl

theorem num_not_ext (p : Proto) : isExtensionHeader p.num = false := by cases p <;> decide

theorem l4_v6 {x : V6} (hx : x.WF) (p : Proto) (hp : x.nxt = p.num) (hl : p.hlen < x.payload.length) :
    l4headerIpv6 x.bytes = .ok (some (p.num, 40)) := by
  unfold l4headerIpv6
  have hb : inBounds 0 40 x.bytes.length = true := by rw [inBounds_iff, V6.len hx]; omega
  rw [hb]
  simp only [Bool.not_true, Bool.false_eq_true, if_false, V6.rd_nxt hx, Res.ok_bind]
  have hw : walkL4 x.bytes (turns x.bytes) x.nxt 40 = .ok (some (p.num, 40)) := by
    unfold turns walkL4
    rw [hp, num_not_ext]; rfl
  rw [hw]
  simp only [Res.ok_bind, headerlength_num]
  have hb2 : inBounds 40 p.hlen x.bytes.length = true := by rw [inBounds_iff, V6.len hx]; omega
  rw [hb2]; rfl

/-- The end of `matchMatches`, given the place of the header. -/
theorem matches_end (es : List Expr) (hes : ∀ e ∈ es, e.WF = true ∧ e.Plain ∧ e.InHeader) (proto l4proto : Nat) (p : Proto) (pre hdr rest : Packet)
    (hl : hdr.length = p.hlen) (henc : ¬ (p = .udp ∧ l4proto = 132))
    (hh : (if proto = 0x0800 then l4headerIpv4 (pre ++ (hdr ++ rest)) else l4headerIpv6 (pre ++ (hdr ++ rest))) = .ok (some (p.num, pre.length))) :
    matchMatches (some (es.map itemOf)) proto l4proto (pre ++ (hdr ++ rest)) = .ok (decide (AllHold es p.num hdr)) := by
  unfold matchMatches
  dsimp only
  by_cases h0 : (es.map itemOf).length = 0
  · rw [if_pos h0]
    have : es = [] := by cases es with
      | nil => rfl
      | cons a b => simp at h0
    subst this; simp [AllHold]
  · rw [if_neg h0, hh]
    simp only [Res.ok_bind]
    rw [if_neg (by
      rintro ⟨h1, h2⟩
      apply henc
      refine ⟨?_, h2⟩
      cases p <;> first | rfl | exact absurd h1 (by decide))]
    exact matchItems_exprs p pre hdr rest hl es hes

/-- The same for SCTP in UDP: `udp` is the UDP header. -/
theorem matches_encap (es : List Expr) (hes : ∀ e ∈ es, e.WF = true ∧ e.Plain ∧ e.InHeader) (proto : Nat) (pre udp hdr rest : Packet)
    (hu : udp.length = 8) (hl : hdr.length = 12) (hr : rest ≠ [])
    (hh : (if proto = 0x0800 then l4headerIpv4 (pre ++ (udp ++ (hdr ++ rest))) else l4headerIpv6 (pre ++ (udp ++ (hdr ++ rest)))) = .ok (some (Proto.udp.num, pre.length))) :
    matchMatches (some (es.map itemOf)) proto 132 (pre ++ (udp ++ (hdr ++ rest))) = .ok (decide (AllHold es Proto.sctp.num hdr)) := by
  unfold matchMatches
  dsimp only
  by_cases h0 : (es.map itemOf).length = 0
  · rw [if_pos h0]
    have : es = [] := by cases es with
      | nil => rfl
      | cons a b => simp at h0
    subst this; simp [AllHold]
  · rw [if_neg h0, hh]
    simp only [Res.ok_bind]
    rw [if_pos (by decide)]
    have hrl : 0 < rest.length := List.length_pos_iff.2 hr
    have hb : inBounds (pre.length + 8) (headerlength 132) (pre ++ (udp ++ (hdr ++ rest))).length = true := by
      rw [inBounds_iff]
      have : headerlength 132 = 12 := rfl
      simp only [List.length_append, hu, hl, this]; omega
    rw [hb]
    simp only [Bool.not_true, Bool.false_eq_true, if_false]
    have e1 : pre ++ (udp ++ (hdr ++ rest)) = (pre ++ udp) ++ (hdr ++ rest) := by simp
    have e2 : pre.length + 8 = (pre ++ udp).length := by simp [hu]
    rw [e1, e2]
    exact matchItems_exprs .sctp (pre ++ udp) hdr rest hl es hes

/-! ### Safety for any packet -/

theorem walkL4_eq (d : Packet) : ∀ (f : Nat) (h : UInt8) (pos : Nat), walkL4 d f h pos = (do
    match ← walkExt true d f h pos with
    | none => return none
    | some (t, p) => if t = 44 then return none else return some (t, p)) := by
  intro f
  induction f with
  | zero => intro h pos; rfl
  | succ f ih =>
    intro h pos
    unfold walkL4 walkExt
    by_cases he : isExtensionHeader h = true
    · simp only [he, Bool.not_true, Bool.false_eq_true, if_false]
      by_cases h44 : h = 44
      · simp [h44]
      · simp only [h44, if_false, decide_false, Bool.and_false, Bool.false_eq_true]
        by_cases hb : (!inBounds pos 2 d.length) = true
        · rw [if_pos hb, if_pos hb]; rfl
        · rw [if_neg hb, if_neg hb]
          cases hr1 : rd d pos <;> simp only [Res.ok_bind, Res.die_bind, Res.ub_bind, Res.hang_bind]
          cases hr2 : rd d (pos + 1) <;> simp only [Res.ok_bind, Res.die_bind, Res.ub_bind, Res.hang_bind]
          split
          · rfl
          · exact ih _ _
    · have he' : isExtensionHeader h = false := by simpa using he
      have : h ≠ 44 := by rintro rfl; exact absurd he (by decide)
      simp [he', this]

theorem l4_ok (proto : Nat) (d : Packet) : (if proto = 0x0800 then l4headerIpv4 d else l4headerIpv6 d) = .ok none ∨
    ∃ t p, (if proto = 0x0800 then l4headerIpv4 d else l4headerIpv6 d) = .ok (some (t, p)) ∧ p + headerlength t.toNat < d.length := by
  by_cases hp : proto = 0x0800
  · simp only [hp, if_true]
    unfold l4headerIpv4
    by_cases hb : inBounds 0 20 d.length = true
    · have hlen := inBounds_iff.1 hb
      obtain ⟨a, ha⟩ := rd_ok (d := d) (i := 9) (by omega)
      obtain ⟨b, hb0⟩ := rd_ok (d := d) (i := 0) (by omega)
      rw [hb, ha, hb0]
      simp only [Bool.not_true, Bool.false_eq_true, if_false, Res.ok_bind, Res.pure_eq]
      by_cases hc : inBounds (b.toNat % 16 * 4) (headerlength a.toNat) d.length = true
      · rw [hc]; right; exact ⟨a, _, rfl, inBounds_iff.1 hc⟩
      · left; simp [hc]
    · left; simp [hb]
  · simp only [hp, if_false]
    unfold l4headerIpv6
    by_cases hb : inBounds 0 40 d.length = true
    · have hlen := inBounds_iff.1 hb
      obtain ⟨a, ha⟩ := rd_ok (d := d) (i := 6) (by omega)
      rw [hb, ha]
      simp only [Bool.not_true, Bool.false_eq_true, if_false, Res.ok_bind, Res.pure_eq]
      rw [walkL4_eq]
      obtain ⟨r, hr⟩ := walkExt_turns_ok true d a 40
      rw [hr]
      match r with
      | none => left; rfl
      | some (t, p) =>
        simp only [Res.ok_bind]
        by_cases h44 : t = 44
        · left; simp [h44]
        · rw [if_neg h44]
          simp only [Res.pure_eq, Res.ok_bind]
          by_cases hc : inBounds p (headerlength t.toNat) d.length = true
          · rw [hc]; right; exact ⟨t, _, rfl, inBounds_iff.1 hc⟩
          · left; simp [hc]
    · left; simp [hb]

theorem readNumber_ok (d : Packet) (p n : Nat) (hn : n = 1 ∨ n = 2 ∨ n = 4) (h : p + n ≤ d.length) : ∃ x, readNumber d p n = .ok x := by
  rcases hn with rfl | rfl | rfl
  · obtain ⟨a, ha⟩ := rd_ok (d := d) (i := p) (by omega)
    unfold readNumber; rw [ha]; exact ⟨_, rfl⟩
  · obtain ⟨a, ha⟩ := rd_ok (d := d) (i := p) (by omega)
    obtain ⟨b, hb⟩ := rd_ok (d := d) (i := p + 1) (by omega)
    unfold readNumber; rw [ha, hb]; exact ⟨_, rfl⟩
  · obtain ⟨a, ha⟩ := rd_ok (d := d) (i := p) (by omega)
    obtain ⟨b, hb⟩ := rd_ok (d := d) (i := p + 1) (by omega)
    obtain ⟨c, hc⟩ := rd_ok (d := d) (i := p + 2) (by omega)
    obtain ⟨e, he⟩ := rd_ok (d := d) (i := p + 3) (by omega)
    unfold readNumber; rw [ha, hb, hc, he]; exact ⟨_, rfl⟩

theorem matchItems_ok (l4 : Nat) (d : Packet) (hdr : Nat) (hd : hdr + headerlength l4 ≤ d.length) : ∀ (m : Match),
    (∀ i ∈ m, (i.nbytes = 1 ∨ i.nbytes = 2 ∨ i.nbytes = 4) ∧ i.offset + i.nbytes ≤ headerlength i.proto) → ∃ b, matchItems l4 d hdr m = .ok b
  | [], _ => ⟨_, rfl⟩
  | i :: m, h => by
    obtain ⟨b, hb⟩ := matchItems_ok l4 d hdr hd m (fun x hx => h x (by simp [hx]))
    obtain ⟨h1, h2⟩ := h i (by simp)
    unfold matchItems
    by_cases hp : i.proto = l4
    · rw [if_pos hp]
      rw [hp] at h2
      obtain ⟨x, hx⟩ := readNumber_ok d (hdr + i.offset) i.nbytes h1 (by omega)
      unfold matchesItem
      rw [hx]
      simp only [Res.ok_bind, Res.pure_eq]
      generalize decide ((if i.mask ≠ 0 then x &&& i.mask else x) = i.value) = c
      cases c with
      | true => exact ⟨b, hb⟩
      | false => exact ⟨_, rfl⟩
    · rw [if_neg hp]; exact ⟨b, hb⟩

/-- What is known of an accepted item. -/
theorem parse_item {s : List Char} {i : Item} (h : matchParse s = .ok (some i)) :
    ∃ e : Expr, e.WF = true ∧ e.text = s ∧ s.length ≤ 64 ∧ i = itemOf e ∧ u32 (cnum e.offset + e.nbytes) ≤ e.proto.hlen := by
  rcases parse_cases s with h' | ⟨e, h1, rfl, h2⟩
  · rw [h] at h'; simp at h'
  · rw [parse_text e h1 h2] at h
    split at h
    · simp at h
    · rename_i hb
      simp only [Res.ok.injEq, Option.some.injEq] at h
      exact ⟨e, h1, rfl, h2, h.symm, by omega⟩

theorem addAll_items : ∀ (ss : List (List Char)) (m m' : Match), matchAddAll m ss = .ok (some m') →
    ∃ es : List Expr, ss = es.map Expr.text ∧ m' = m ++ es.map itemOf ∧ ∀ e ∈ es, e.WF = true ∧ e.text.length ≤ 64 ∧ u32 (cnum e.offset + e.nbytes) ≤ e.proto.hlen
  | [], m, m', h => by
    simp only [matchAddAll, Res.ok.injEq, Option.some.injEq] at h
    exact ⟨[], rfl, by simp [h], by simp⟩
  | s :: ss, m, m', h => by
    unfold matchAddAll matchAdd at h
    rcases parse_cases s with h' | ⟨e, h1, rfl, h2⟩
    · rw [h'] at h; simp at h
    · rw [parse_text e h1 h2] at h
      split at h
      · simp at h
      · rename_i hb
        simp only [Res.ok_bind, Res.pure_eq] at h
        obtain ⟨es, rfl, rfl, hes⟩ := addAll_items ss _ _ h
        refine ⟨e :: es, rfl, by simp, ?_⟩
        intro x hx
        rcases List.mem_cons.1 hx with rfl | hx
        · exact ⟨h1, h2, by omega⟩
        · exact hes x hx

/-- The parser always returns. -/
theorem parse_ok (s : List Char) : ∃ r, matchParse s = .ok r := by
  rcases parse_cases s with h | ⟨e, h1, rfl, h2⟩
  · exact ⟨_, h⟩
  · exact ⟨_, parse_text e h1 h2⟩

theorem matches_ok (m : Match) (proto l4 : Nat) (d : Packet)
    (h : ∀ i ∈ m, (i.nbytes = 1 ∨ i.nbytes = 2 ∨ i.nbytes = 4) ∧ i.offset + i.nbytes ≤ headerlength i.proto) : ∃ b, matchMatches (some m) proto l4 d = .ok b := by
  unfold matchMatches
  dsimp only
  split
  · exact ⟨_, rfl⟩
  · rcases l4_ok proto d with h' | ⟨t, p, h', hb⟩
    · rw [h']; exact ⟨_, rfl⟩
    · rw [h']
      simp only [Res.ok_bind, Res.pure_eq]
      split
      · split
        · exact ⟨_, rfl⟩
        · rename_i hc
          have hc' : p + 8 + headerlength 132 < d.length := by simpa [inBounds_iff] using hc
          exact matchItems_ok 132 d _ (by omega) m h
      · exact matchItems_ok _ d _ (by omega) m h

end Nfqlb.Match
