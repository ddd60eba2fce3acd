import Verif.Model.Copy
import Verif.Model.FlowLb
import Verif.Proof.Packet
import Verif.Proof.PacketKeys
import Verif.Proof.PktTotal

/-! Cutting off a packet behind its headers. -/

set_option autoImplicit false

namespace Nfqlb

open Nfqlb.Spec

theorem Res.bind_congr {α β : Type} {x : Res α} {f g : α → Res β} (h : ∀ a, x = .ok a → f a = g a) : (x >>= f) = (x >>= g) := by
  cases x with
  | ok a => exact h a rfl
  | die => rfl
  | ub => rfl
  | hang => rfl

theorem rd_take (d : Packet) {i k : Nat} (h : i < k) : rd (d.take k) i = rd d i := by
  unfold rd; rw [List.getElem?_take_of_lt h]

theorem rd16_take (d : Packet) {i k : Nat} (h : i + 1 < k) : rd16 (d.take k) i = rd16 d i := by
  unfold rd16; rw [rd_take d (by omega), rd_take d h]

theorem rdN_take (d : Packet) {i n k : Nat} (h : i + n ≤ k) : rdN (d.take k) i n = rdN d i n := by
  unfold rdN
  have e : (i + n ≤ (d.take k).length) = (i + n ≤ d.length) := by
    rw [List.length_take]; apply propext; omega
  simp only [e]
  split
  · rw [List.drop_take, List.take_take, Nat.min_eq_left (by omega)]
  · rfl

theorem inBounds_take (d : Packet) {p o k : Nat} (h : p + o < k) : inBounds p o (d.take k).length = inBounds p o d.length := by
  unfold inBounds
  rw [List.length_take]
  congr 1
  apply propext; omega

theorem portsPart_take (ue : Nat) (d : Packet) (proto : UInt8) {pos k : Nat} (swap : Bool) (ky : Key) (rc : Int) (f : Option (Raw16 × Raw16)) (h : pos + 12 < k) :
    portsPart ue (d.take k) proto pos swap ky rc f = portsPart ue d proto pos swap ky rc f := by
  unfold portsPart
  rw [inBounds_take d (by omega), inBounds_take d (by omega), rd16_take d (by omega), rd16_take d (by omega), rd16_take d (by omega), rd16_take d (by omega)]

theorem innerV4_take (ue : Nat) (d : Packet) {ih k : Nat} (h : ih + 80 < k) : getInnerHashKeyIpv4 ue (d.take k) ih = getInnerHashKeyIpv4 ue d ih := by
  unfold getInnerHashKeyIpv4
  dsimp only
  rw [inBounds_take d (by omega), rd_take d (by omega), rdN_take d (by omega), rdN_take d (by omega), rd_take d (by omega)]
  split
  · rfl
  apply Res.bind_congr; intro b0 _
  have hb : b0.toNat % 16 < 16 := Nat.mod_lt _ (by omega)
  split
  · rfl
  apply Res.bind_congr; intro s _
  apply Res.bind_congr; intro da _
  apply Res.bind_congr; intro pr _
  split
  · rfl
  exact portsPart_take ue d pr true _ 8 none (by omega)

theorem ipv4_take (ue : Nat) (d : Packet) {k : Nat} (h : 140 < k) : getHashKeyIpv4 ue (d.take k) = getHashKeyIpv4 ue d := by
  unfold getHashKeyIpv4
  rw [inBounds_take d (by omega), rd_take d (by omega), rd16_take d (by omega), rd16_take d (by omega), rdN_take d (by omega), rdN_take d (by omega), rd_take d (by omega)]
  split
  · rfl
  apply Res.bind_congr; intro b0 _
  have hb : b0.toNat % 16 < 16 := Nat.mod_lt _ (by omega)
  dsimp only
  split
  · rfl
  apply Res.bind_congr; intro fo _
  apply Res.bind_congr; intro ident _
  apply Res.bind_congr; intro s _
  apply Res.bind_congr; intro da _
  apply Res.bind_congr; intro pr _
  split
  · rfl
  split
  · rw [rd_take d (by omega)]
    apply Res.bind_congr; intro t _
    rw [innerV4_take ue d (by omega), rd16_take d (by omega)]
  · split
    · rfl
    exact portsPart_take ue d pr false _ _ _ (by omega)

/-! ### IPv6 without extension headers -/

theorem innerV6_take (ue : Nat) (d : Packet) {ih k : Nat} (h : ih + 60 < k) (hn : ∀ t, d[ih + 14]? = some t → ¬ IsExt t) : getInnerHashKeyIpv6 ue (d.take k) ih = getInnerHashKeyIpv6 ue d ih := by
  unfold getInnerHashKeyIpv6
  dsimp only
  rw [inBounds_take d (by omega), rd_take d (by omega), rdN_take d (by omega), rdN_take d (by omega)]
  split
  · rfl
  apply Res.bind_congr; intro t ht
  have ht' : ¬ IsExt t := hn t (by
    unfold rd at ht
    rw [show ih + 8 + 6 = ih + 14 by omega] at ht
    cases hx : d[ih + 14]? with
    | none => rw [hx] at ht; cases ht
    | some b => rw [hx] at ht; cases ht; rfl)
  rw [walkExt_upper false _ t _ ht', walkExt_upper false _ t _ ht']
  simp only [Res.ok_bind]
  apply Res.bind_congr; intro s _
  apply Res.bind_congr; intro da _
  split
  · rfl
  exact portsPart_take ue d t true _ 8 none (by omega)

theorem ipv6_take (ue : Nat) (d : Packet) {k : Nat} (h : 140 < k) (hn : ∀ t, d[6]? = some t → ¬ IsExt t) (hq : d[6]? = some 58 → ∀ t, d[54]? = some t → ¬ IsExt t) :
    getHashKeyIpv6 ue (d.take k) = getHashKeyIpv6 ue d := by
  unfold getHashKeyIpv6
  rw [inBounds_take d (by omega), rd_take d (by omega), rdN_take d (by omega), rdN_take d (by omega)]
  split
  · rfl
  apply Res.bind_congr; intro t ht
  have hg : d[6]? = some t := by
    unfold rd at ht
    cases hx : d[6]? with
    | none => rw [hx] at ht; cases ht
    | some b => rw [hx] at ht; cases ht; rfl
  have ht' : ¬ IsExt t := hn t hg
  apply Res.bind_congr; intro s _
  apply Res.bind_congr; intro da _
  rw [walkExt_upper true _ t _ ht', walkExt_upper true _ t _ ht']
  simp only [Res.ok_bind]
  have h44 : t ≠ 44 := by intro e; subst e; exact ht' (by unfold IsExt; simp)
  rw [if_neg h44, if_neg h44]
  unfold ipv6Upper
  dsimp only
  split
  · rename_i h58
    subst h58
    rw [rd_take d (by omega), innerV6_take ue d (by omega) (hq hg), rd16_take d (by omega)]
  · split
    · rfl
    exact portsPart_take ue d t false _ _ _ (by omega)

/-! ### Byte matches -/

namespace Match

theorem headerlength_le (p : Nat) : headerlength p ≤ 20 := by unfold headerlength; split <;> (try split) <;> (try split) <;> omega

theorem readNumber_take (d : Packet) {p n k : Nat} (h : p + n ≤ k) : readNumber (d.take k) p n = readNumber d p n := by
  unfold readNumber
  split
  · rw [rd_take d (by omega)]
  · rw [rd_take d (by omega), rd_take d (by omega)]
  · rw [rd_take d (by omega), rd_take d (by omega), rd_take d (by omega), rd_take d (by omega)]
  · rfl

theorem matchItems_take (l4 : Nat) (d : Packet) {hdr k : Nat} (h : hdr + headerlength l4 ≤ k) : ∀ m : List Item, (∀ i ∈ m, i.offset + i.nbytes ≤ headerlength i.proto) →
    matchItems l4 (d.take k) hdr m = matchItems l4 d hdr m
  | [], _ => rfl
  | i :: m, hi => by
    have ih := matchItems_take l4 d h m (fun j hj => hi j (.tail _ hj))
    simp only [matchItems]
    split
    · rename_i he
      have := hi i (.head _)
      rw [he] at this
      rw [show matchesItem i (d.take k) hdr = matchesItem i d hdr by unfold matchesItem; rw [readNumber_take d (by omega)]]
      apply Res.bind_congr; intro b _
      rw [ih]
    · exact ih

theorem l4v4_take (d : Packet) {k : Nat} (h : 80 < k) : l4headerIpv4 (d.take k) = l4headerIpv4 d := by
  unfold l4headerIpv4
  rw [inBounds_take d (by omega), rd_take d (by omega), rd_take d (by omega)]
  split
  · rfl
  apply Res.bind_congr; intro pr _
  apply Res.bind_congr; intro b0 _
  have hb : b0.toNat % 16 < 16 := Nat.mod_lt _ (by omega)
  have := headerlength_le pr.toNat
  dsimp only
  rw [inBounds_take d (by omega)]

theorem l4v4_pos {d : Packet} {t : UInt8} {p : Nat} (h : l4headerIpv4 d = .ok (some (t, p))) : p ≤ 60 := by
  unfold l4headerIpv4 at h
  split at h
  · cases h
  obtain ⟨pr, _, h⟩ := Server.bind_ok h
  obtain ⟨b0, _, h⟩ := Server.bind_ok h
  have hb : b0.toNat % 16 < 16 := Nat.mod_lt _ (by omega)
  dsimp only at h
  split at h
  · cases h
  · cases h; omega

theorem walkL4_upper (d : Packet) (t : UInt8) (pos : Nat) (h : ¬ IsExt t) : walkL4 d (turns d) t pos = .ok (some (t, pos)) := by
  have hx : isExtensionHeader t = false := by
    cases hb : isExtensionHeader t with
    | false => rfl
    | true => exact absurd ((isExt_iff t).1 hb) h
  simp only [turns, walkL4, hx, Bool.not_false, if_true]

theorem l4v6_eq (d : Packet) (hn : ∀ t, d[6]? = some t → ¬ IsExt t) : l4headerIpv6 d =
    if !inBounds 0 40 d.length then .ok none
    else do
      let t ← rd d 6
      if !inBounds 40 (headerlength t.toNat) d.length then return none else return some (t, 40) := by
  unfold l4headerIpv6
  split
  · rfl
  apply Res.bind_congr; intro t ht
  have hg : d[6]? = some t := by
    unfold rd at ht
    cases hx : d[6]? with
    | none => rw [hx] at ht; cases ht
    | some b => rw [hx] at ht; cases ht; rfl
  rw [walkL4_upper d t 40 (hn t hg)]
  rfl

theorem l4v6_take (d : Packet) {k : Nat} (h : 80 < k) (hn : ∀ t, d[6]? = some t → ¬ IsExt t) : l4headerIpv6 (d.take k) = l4headerIpv6 d := by
  rw [l4v6_eq d hn, l4v6_eq (d.take k) (by rw [List.getElem?_take_of_lt (by omega)]; exact hn)]
  rw [inBounds_take d (by omega), rd_take d (by omega)]
  split
  · rfl
  apply Res.bind_congr; intro t _
  have := headerlength_le t.toNat
  rw [inBounds_take d (by omega)]

theorem l4v6_pos {d : Packet} (hn : ∀ t, d[6]? = some t → ¬ IsExt t) {t : UInt8} {p : Nat} (h : l4headerIpv6 d = .ok (some (t, p))) : p ≤ 60 := by
  rw [l4v6_eq d hn] at h
  split at h
  · cases h
  obtain ⟨pr, _, h⟩ := Server.bind_ok h
  split at h
  · cases h
  · cases h; omega

theorem matches_take (m : Option Match) (hm : ∀ l, m = some l → ∀ i ∈ l, i.offset + i.nbytes ≤ headerlength i.proto) (proto l4 : Nat) (d : Packet) {k : Nat} (h : 80 < k)
    (hn : proto ≠ 0x0800 → ∀ t, d[6]? = some t → ¬ IsExt t) : matchMatches m proto l4 (d.take k) = matchMatches m proto l4 d := by
  cases m with
  | none => rfl
  | some l =>
    have hl := hm l rfl
    unfold matchMatches
    dsimp only
    split
    · rfl
    have e : (if proto = 0x0800 then l4headerIpv4 (d.take k) else l4headerIpv6 (d.take k)) = (if proto = 0x0800 then l4headerIpv4 d else l4headerIpv6 d) := by
      split
      · exact l4v4_take d h
      · rename_i hp; exact l4v6_take d h (hn hp)
    rw [e]
    apply Res.bind_congr; intro r hr
    cases r with
    | none => rfl
    | some x =>
      obtain ⟨t, p⟩ := x
      have hp : p ≤ 60 := by
        split at hr
        · exact l4v4_pos hr
        · rename_i hp; exact l4v6_pos (hn hp) hr
      have := headerlength_le t.toNat
      have h132 : headerlength 132 = 12 := rfl
      dsimp only
      rw [inBounds_take d (by omega), matchItems_take 132 d (by omega) l hl, matchItems_take t.toNat d (by omega) l hl]

end Match

/-! ### More bytes -/

/-- What is returned for `x` is returned for `y`, if it is `good`. -/
def Le {α : Type} (good : α → Prop) (x y : Res α) : Prop := ∀ a, x = .ok a → good a → y = .ok a

theorem Le.bind {α β : Type} {good : β → Prop} {x x' : Res α} {f g : α → Res β} (hx : ∀ a, x = .ok a → x' = .ok a) (hf : ∀ a, Le good (f a) (g a)) : Le good (x >>= f) (x' >>= g) := by
  intro b hb hg
  obtain ⟨a, ha, hb⟩ := Server.bind_ok hb
  rw [hx a ha]
  exact hf a b hb hg

theorem Le.refl {α : Type} (good : α → Prop) (x : Res α) : Le good x x := fun _ h _ => h

theorem rd_more {d : Packet} (e : Packet) {i : Nat} : ∀ b, rd d i = .ok b → rd (d ++ e) i = .ok b := by
  intro b h
  unfold rd at h ⊢
  cases hx : d[i]? with
  | none => rw [hx] at h; cases h
  | some c =>
    rw [hx] at h
    obtain ⟨hi, _⟩ := List.getElem?_eq_some_iff.1 hx
    rw [List.getElem?_append_left hi, hx]
    exact h

theorem rd16_more {d : Packet} (e : Packet) {i : Nat} : ∀ b, rd16 d i = .ok b → rd16 (d ++ e) i = .ok b := by
  intro b h
  unfold rd16 at h ⊢
  obtain ⟨a, ha, h⟩ := Server.bind_ok h
  obtain ⟨c, hc, h⟩ := Server.bind_ok h
  rw [rd_more e a ha, rd_more e c hc]
  exact h

theorem rdN_more {d : Packet} (e : Packet) {i n : Nat} : ∀ b, rdN d i n = .ok b → rdN (d ++ e) i n = .ok b := by
  intro b h
  unfold rdN at h ⊢
  split at h
  · rename_i hl
    rw [if_pos (by rw [List.length_append]; omega), List.drop_append_of_le_length (by omega), List.take_append_of_le_length (by rw [List.length_drop]; omega)]
    exact h
  · cases h

theorem inBounds_more {d : Packet} (e : Packet) {p o : Nat} (h : ¬ (!inBounds p o d.length) = true) : ¬ (!inBounds p o (d ++ e).length) = true := by
  rw [not_inBounds_iff] at h ⊢
  rw [List.length_append]; omega

/-- The packet has a key. -/
def Keyed (p : Parsed) : Prop := 0 ≤ p.rc

theorem fail_le (y : Res Parsed) : Le Keyed (.ok Parsed.fail) y := by
  intro a h hg
  cases h
  exact absurd hg (by unfold Keyed Parsed.fail; decide)

theorem portsPart_more (ue : Nat) (d e : Packet) (proto : UInt8) (pos : Nat) (swap : Bool) (ky : Key) (rc : Int) (f : Option (Raw16 × Raw16)) :
    Le Keyed (portsPart ue d proto pos swap ky rc f) (portsPart ue (d ++ e) proto pos swap ky rc f) := by
  unfold portsPart
  split
  · exact fail_le _
  rename_i h1
  rw [if_neg (inBounds_more e h1)]
  refine Le.bind (rd16_more e) fun p0 => Le.bind (rd16_more e) fun p1 => ?_
  by_cases hc : ue ≠ 0 ∧ proto = 17 ∧ ntohs (if swap then p0 else p1) = ue
  · rw [if_pos hc, if_pos hc]
    by_cases h2 : (!inBounds (pos + 8) 4 d.length) = true
    · rw [if_pos h2]; exact fail_le _
    rw [if_neg h2, if_neg (inBounds_more e h2)]
    exact Le.bind (rd16_more e) fun q0 => Le.bind (rd16_more e) fun q1 => Le.refl _ _
  · rw [if_neg hc, if_neg hc]; exact Le.refl _ _

theorem innerV4_more (ue : Nat) (d e : Packet) (ih : Nat) : Le Keyed (getInnerHashKeyIpv4 ue d ih) (getInnerHashKeyIpv4 ue (d ++ e) ih) := by
  unfold getInnerHashKeyIpv4
  dsimp only
  split
  · exact fail_le _
  rename_i h1
  rw [if_neg (inBounds_more e h1)]
  refine Le.bind (rd_more e) fun b0 => ?_
  split
  · exact fail_le _
  refine Le.bind (rdN_more e) fun s => Le.bind (rdN_more e) fun da => Le.bind (rd_more e) fun pr => ?_
  split
  · exact Le.refl _ _
  apply portsPart_more

theorem ipv4_more (ue : Nat) (d e : Packet) : Le Keyed (getHashKeyIpv4 ue d) (getHashKeyIpv4 ue (d ++ e)) := by
  unfold getHashKeyIpv4
  dsimp only
  split
  · exact fail_le _
  rename_i h1
  rw [if_neg (inBounds_more e h1)]
  refine Le.bind (rd_more e) fun b0 => ?_
  split
  · exact fail_le _
  refine Le.bind (rd16_more e) fun fo => Le.bind (rd16_more e) fun ident => Le.bind (rdN_more e) fun s => Le.bind (rdN_more e) fun da => Le.bind (rd_more e) fun pr => ?_
  split
  · exact Le.refl _ _
  split
  · refine Le.bind (rd_more e) fun t => ?_
    split
    · split
      · exact Le.refl _ _
      · apply innerV4_more
    split
    · exact Le.bind (rd16_more e) fun id => Le.refl _ _
    · exact Le.refl _ _
  split
  · exact Le.refl _ _
  apply portsPart_more

/-- What the loop over extension headers found in fewer bytes and turns is found in more. -/
theorem walkExt_more (sf : Bool) (d e : Packet) : ∀ (f1 f2 : Nat) (t : UInt8) (pos : Nat) (r : UInt8 × Nat), f1 ≤ f2 → walkExt sf d f1 t pos = .ok (some r) → walkExt sf (d ++ e) f2 t pos = .ok (some r)
  | 0, _, _, _, _, _, h => by simp only [walkExt] at h; cases h
  | f1 + 1, 0, _, _, _, hf, _ => by omega
  | f1 + 1, f2 + 1, t, pos, r, hf, h => by
    simp only [walkExt] at h ⊢
    split at h
    · rename_i h1; rw [if_pos h1]; exact h
    rename_i h1; rw [if_neg h1]
    split at h
    · rename_i h2; rw [if_pos h2]; exact h
    rename_i h2; rw [if_neg h2]
    split at h
    · cases h
    rename_i h3; rw [if_neg (inBounds_more e h3)]
    obtain ⟨n, hn, h⟩ := Server.bind_ok h
    obtain ⟨l, hl, h⟩ := Server.bind_ok h
    rw [rd_more e n hn, rd_more e l hl]
    simp only [Res.ok_bind]
    split at h
    · cases h
    rename_i h4; rw [if_neg h4]
    exact walkExt_more sf d e f1 f2 n _ r (by omega) h

theorem walkFrag_more (d e : Packet) : ∀ (f1 f2 : Nat) (t : UInt8) (pos : Nat) (r : UInt8 × Nat), f1 ≤ f2 → walkFrag d f1 t pos = .ok r → walkFrag (d ++ e) f2 t pos = .ok r
  | 0, _, _, _, _, _, h => by simp only [walkFrag] at h; cases h
  | f1 + 1, 0, _, _, _, hf, _ => by omega
  | f1 + 1, f2 + 1, t, pos, r, hf, h => by
    simp only [walkFrag] at h ⊢
    split at h
    · rename_i h1; rw [if_pos h1]; exact h
    rename_i h1; rw [if_neg h1]
    obtain ⟨n, hn, h⟩ := Server.bind_ok h
    obtain ⟨l, hl, h⟩ := Server.bind_ok h
    rw [rd_more e n hn, rd_more e l hl]
    simp only [Res.ok_bind]
    exact walkFrag_more d e f1 f2 n _ r (by omega) h

theorem turns_more (d e : Packet) : turns d ≤ turns (d ++ e) := by unfold turns; rw [List.length_append]; omega

/-- A loop over extension headers and what follows. -/
theorem Le.walk {sf : Bool} {d e : Packet} {t : UInt8} {pos : Nat} {f g : Option (UInt8 × Nat) → Res Parsed} (h0 : f none = .ok Parsed.fail) (hf : ∀ r, Le Keyed (f (some r)) (g (some r))) :
    Le Keyed (walkExt sf d (turns d) t pos >>= f) (walkExt sf (d ++ e) (turns (d ++ e)) t pos >>= g) := by
  intro b hb hg
  obtain ⟨r, hr, hb⟩ := Server.bind_ok hb
  cases r with
  | none => rw [h0] at hb; exact fail_le _ b hb hg
  | some r =>
    rw [walkExt_more sf d e _ _ t pos r (turns_more d e) hr]
    exact hf r b hb hg

theorem innerV6_more (ue : Nat) (d e : Packet) (ih : Nat) : Le Keyed (getInnerHashKeyIpv6 ue d ih) (getInnerHashKeyIpv6 ue (d ++ e) ih) := by
  unfold getInnerHashKeyIpv6
  dsimp only
  split
  · exact fail_le _
  rename_i h1
  rw [if_neg (inBounds_more e h1)]
  refine Le.bind (rd_more e) fun t => Le.walk rfl fun r => ?_
  obtain ⟨h, p⟩ := r
  refine Le.bind (rdN_more e) fun s => Le.bind (rdN_more e) fun da => ?_
  split
  · exact Le.refl _ _
  apply portsPart_more

theorem ipv6Upper_more (ue : Nat) (d e : Packet) (sa da : List UInt8) (frag : Bool) (f : Option (Raw16 × Raw16)) (t : UInt8) (hdr : Nat) :
    Le Keyed (ipv6Upper ue d sa da frag f t hdr) (ipv6Upper ue (d ++ e) sa da frag f t hdr) := by
  unfold ipv6Upper
  dsimp only
  split
  · refine Le.bind (rd_more e) fun t => ?_
    split
    · split
      · exact Le.refl _ _
      · apply innerV6_more
    split
    · exact Le.bind (rd16_more e) fun id => Le.refl _ _
    · exact Le.refl _ _
  split
  · exact Le.refl _ _
  apply portsPart_more

theorem ipv6_more (ue : Nat) (d e : Packet) : Le Keyed (getHashKeyIpv6 ue d) (getHashKeyIpv6 ue (d ++ e)) := by
  unfold getHashKeyIpv6
  split
  · exact fail_le _
  rename_i h1
  rw [if_neg (inBounds_more e h1)]
  refine Le.bind (rd_more e) fun t => Le.bind (rdN_more e) fun s => Le.bind (rdN_more e) fun da => Le.walk rfl fun r => ?_
  obtain ⟨h, p⟩ := r
  dsimp only
  split
  · refine Le.bind (rd16_more e) fun o => Le.bind (rd16_more e) fun i0 => Le.bind (rd16_more e) fun i1 => ?_
    split
    · refine Le.bind (fun r hr => walkFrag_more d e _ _ h p r (turns_more d e) hr) fun r => ?_
      apply ipv6Upper_more
    · exact Le.refl _ _
  · apply ipv6Upper_more

theorem key_more (ue proto : Nat) (d e : Packet) : Le Keyed (getHashKey ue proto d) (getHashKey ue proto (d ++ e)) := by
  unfold getHashKey
  split
  · exact ipv4_more ue d e
  split
  · exact ipv6_more ue d e
  · exact fail_le _

/-! ### The handlers -/

theorem key_take (ue proto : Nat) (d : Packet) {k : Nat} (h : 140 < k) (hn : proto = 0x86dd → (∀ t, d[6]? = some t → ¬ IsExt t) ∧ (d[6]? = some 58 → ∀ t, d[54]? = some t → ¬ IsExt t)) :
    getHashKey ue proto (d.take k) = getHashKey ue proto d := by
  unfold getHashKey
  split
  · exact ipv4_take ue d h
  split
  · rename_i h6; exact ipv6_take ue d h (hn h6).1 (hn h6).2
  · rfl

namespace FlowLb

open Nfqlb.Flow (flowMatch flowLookup lookupLoop matchPasses)

/-- The match expressions read in the headers. -/
def InHdr (set : Flow.FlowSet) : Prop := ∀ f ∈ set.flows, ∀ m, f.mtch = some m → ∀ i ∈ m, i.offset + i.nbytes ≤ Match.headerlength i.proto

theorem flowMatch_take {f : Flow.Flow} (hf : ∀ m, f.mtch = some m → ∀ i ∈ m, i.offset + i.nbytes ≤ Match.headerlength i.proto) (key : Key) (ping : Bool) (l3 : Nat) (d : Packet) {k : Nat} (h : 80 < k)
    (hn : l3 ≠ 0x0800 → ∀ t, d[6]? = some t → ¬ IsExt t) : flowMatch key f ping l3 (d.take k) = flowMatch key f ping l3 d := by
  have e : matchPasses f.mtch l3 key (d.take k) = matchPasses f.mtch l3 key d := by
    unfold matchPasses
    cases hm : f.mtch with
    | none => rfl
    | some m =>
      dsimp only
      rw [Match.matches_take (some m) (fun l hl => hf l (by rw [hm]; exact hl)) l3 _ d h hn]
      have : (d.take k = []) = (d = []) := by
        apply propext
        rw [List.take_eq_nil_iff]
        constructor
        · rintro (h | h)
          · omega
          · exact h
        · exact Or.inr
      simp only [this]
  unfold flowMatch
  rw [e]

theorem lookupLoop_take (key : Key) (ping : Bool) (l3 : Nat) (d : Packet) {k : Nat} (h : 80 < k) (hn : l3 ≠ 0x0800 → ∀ t, d[6]? = some t → ¬ IsExt t) : ∀ (fs : List Flow.Flow) (ue : Nat),
    (∀ f ∈ fs, ∀ m, f.mtch = some m → ∀ i ∈ m, i.offset + i.nbytes ≤ Match.headerlength i.proto) → lookupLoop key ping l3 (d.take k) fs ue = lookupLoop key ping l3 d fs ue
  | [], _, _ => rfl
  | f :: fs, ue, hf => by
    simp only [lookupLoop]
    rw [flowMatch_take (hf f (.head _)) key ping l3 d h hn]
    apply Res.bind_congr; intro v _
    split
    · rfl
    · exact lookupLoop_take key ping l3 d h hn fs _ (fun g hg => hf g (.tail _ hg))

theorem lookup_take {st : St} (hi : InHdr st.fset) (key : Key) (l3 : Nat) (d : Packet) {k : Nat} (h : 80 < k) (hn : l3 ≠ 0x0800 → ∀ t, d[6]? = some t → ¬ IsExt t) (ue : Nat) :
    lookup st key l3 (d.take k) ue = lookup st key l3 d ue := by
  unfold lookup flowLookup
  rw [lookupLoop_take key st.fset.ping l3 d h hn st.fset.flows ue hi]

theorem lookup_fset {st st' : St} {key : Key} {l3 : Nat} {d : Packet} {ue : Nat} {r : Nat × Nat} (h : lookup st key l3 d ue = .ok (st', r)) : st'.fset = st.fset := by
  unfold lookup at h
  obtain ⟨x, _, h⟩ := Server.bind_ok h
  obtain ⟨lb, u⟩ := x
  dsimp only at h
  split at h
  · cases h; rfl
  · obtain ⟨s, hs, h⟩ := Server.bind_ok h
    cases h
    unfold lock at hs
    split at hs
    · cases hs
    · cases hs; rfl

theorem pktLookup_take (conf : Conf) {st : St} (hi : InHdr st.fset) (proto : Nat) (d : Packet) {k : Nat} (h : 140 < k) (hp : proto = 0x0800 ∨ proto = 0x86dd)
    (hn : proto = 0x86dd → (∀ t, d[6]? = some t → ¬ IsExt t) ∧ (d[6]? = some 58 → ∀ t, d[54]? = some t → ¬ IsExt t)) (p : Parsed) : pktLookup conf st proto (d.take k) p = pktLookup conf st proto d p := by
  have hn' : proto ≠ 0x0800 → ∀ t, d[6]? = some t → ¬ IsExt t := fun h4 => (hn (hp.resolve_left h4)).1
  unfold pktLookup
  rw [lookup_take hi p.key proto d (by omega) hn']
  apply Res.bind_congr; intro x hx
  obtain ⟨st1, lb, ue⟩ := x
  dsimp only
  split
  · rw [key_take ue proto d h hn]
    apply Res.bind_congr; intro q _
    split
    · rfl
    rw [lookup_take (by rw [lookup_fset hx]; exact hi) q.key proto d (by omega) hn']
  · rfl

theorem pktBegin_take (conf : Conf) {st : St} (hi : InHdr st.fset) (proto : Nat) (d : Packet) {k : Nat} (h : 140 < k)
    (hn : proto = 0x86dd → (∀ t, d[6]? = some t → ¬ IsExt t) ∧ (d[6]? = some 58 → ∀ t, d[54]? = some t → ¬ IsExt t)) : pktBegin conf st proto (d.take k) = pktBegin conf st proto d := by
  by_cases hp : proto = 0x0800 ∨ proto = 0x86dd
  · unfold pktBegin
    rw [key_take 0 proto d h hn]
    apply Res.bind_congr; intro p _
    rw [pktLookup_take conf hi proto d h hp hn p]
  · rw [not_or] at hp
    have e : ∀ x, getHashKey 0 proto x = .ok Parsed.fail := by
      intro x
      unfold getHashKey
      rw [if_neg hp.1, if_neg hp.2]
    unfold pktBegin
    rw [e, e]
    simp only [Res.ok_bind]
    rw [if_pos (show Parsed.fail.rc < 0 by decide), if_pos (show Parsed.fail.rc < 0 by decide)]

theorem pktHandle_take (conf : Conf) (env : Env) {st : St} (hi : InHdr st.fset) (proto : Nat) (d : Packet) {k : Nat} (h : 140 < k)
    (hn : proto = 0x86dd → (∀ t, d[6]? = some t → ¬ IsExt t) ∧ (d[6]? = some 58 → ∀ t, d[54]? = some t → ¬ IsExt t)) : pktHandle conf env st proto (d.take k) = pktHandle conf env st proto d := by
  unfold pktHandle
  rw [pktBegin_take conf hi proto d h hn]

end FlowLb

end Nfqlb
