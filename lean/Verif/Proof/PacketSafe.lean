import Verif.Proof.PacketKeys

set_option autoImplicit false

namespace Nfqlb

open Spec

theorem rd_some {d : Packet} {i : Nat} {b : UInt8} (h : rd d i = .ok b) : d[i]? = some b := by
  unfold rd at h
  split at h
  · simp_all
  · simp at h

theorem ipv4_ok (ue : Nat) (d : Packet)
    (h : ∀ b0, d[0]? = some b0 → d[9]? = some 1 → 4 * (b0.toNat % 16) + 6 ≤ d.length) :
    ∃ p, getHashKeyIpv4 ue d = .ok p := by
  unfold getHashKeyIpv4
  split
  · exact ⟨_, rfl⟩
  · rename_i hb
    have hb' : 0 + 20 < d.length := by simpa [inBounds_iff] using hb
    obtain ⟨b0, h0⟩ := rd_ok (d := d) (i := 0) (by omega)
    obtain ⟨f, hf⟩ := rd16_ok (d := d) (i := 6) (by omega)
    obtain ⟨i, hi⟩ := rd16_ok (d := d) (i := 4) (by omega)
    obtain ⟨s, hs⟩ := rdN_ok (d := d) (i := 12) (n := 4) (by omega)
    obtain ⟨t, ht⟩ := rdN_ok (d := d) (i := 16) (n := 4) (by omega)
    obtain ⟨p, hp⟩ := rd_ok (d := d) (i := 9) (by omega)
    simp only [h0, hf, hi, hs, ht, hp, Res.ok_bind]
    split
    · exact ⟨_, rfl⟩
    · split
      · exact ⟨_, rfl⟩
      · by_cases h1 : p = 1
        · subst h1
          have hl := h b0 (rd_some h0) (rd_some hp)
          obtain ⟨a, ha⟩ := rd_ok (d := d) (i := 4 * (b0.toNat % 16)) (by omega)
          obtain ⟨c, hc⟩ := rd16_ok (d := d) (i := 4 * (b0.toNat % 16) + 4) (by omega)
          simp only [if_true, ha, hc, Res.ok_bind]
          split
          · split
            · exact ⟨_, rfl⟩
            · exact innerV4_ok ..
          · split <;> exact ⟨_, rfl⟩
        · simp only [h1, if_false]
          split
          · exact ⟨_, rfl⟩
          · exact portsPart_ok ..

/-- The first fragment's loop ends at once if the fragment header names no extension header. -/
theorem walkFrag_next (d : Packet) (f pos : Nat) (nxt res : UInt8) (hf : 2 ≤ f) (h0 : d[pos]? = some nxt) (h1 : d[pos + 1]? = some res)
    (hn : ¬ IsExt nxt) : walkFrag d f 44 pos = .ok (nxt, pos + res.toNat * 8) := by
  have : isExtensionHeader nxt = false := by
    cases hb : isExtensionHeader nxt
    · rfl
    · exact absurd ((isExt_iff _).1 hb) hn
  obtain ⟨f, rfl⟩ : ∃ g, f = g + 2 := ⟨f - 2, by omega⟩
  have h44 : isExtensionHeader 44 = true := by decide
  simp [walkFrag, h44, this, rd, h0, h1]

/-- If the fragment header names an extension header and its reserved byte is 0 the loop never ends. -/
theorem walkFrag_hang (d : Packet) (pos : Nat) (nxt : UInt8) (h0 : d[pos]? = some nxt) (h1 : d[pos + 1]? = some 0)
    (hn : IsExt nxt) : ∀ (f : Nat) (t : UInt8), IsExt t → walkFrag d f t pos = .hang := by
  intro f
  induction f with
  | zero => intro t _; rfl
  | succ f ih =>
    intro t ht
    have : isExtensionHeader t = true := (isExt_iff _).2 ht
    simp only [walkFrag, this, rd, h0, h1]
    exact ih nxt hn

theorem ipv6_ok (ue : Nat) (d : Packet)
    (h : ∀ nxt t pos, d[6]? = some nxt → ChainEnd d nxt 40 t pos →
      (t = 58 → pos + 6 ≤ d.length) ∧
      (t = 44 → pos + 8 ≤ d.length ∧
        ∀ n r o0 o1, d[pos]? = some n → d[pos + 1]? = some r → d[pos + 2]? = some o0 → d[pos + 3]? = some o1 →
          (o0.toNat * 256 + o1.toNat) / 8 = 0 → ¬ IsExt n ∧ (n = 58 → pos + r.toNat * 8 + 6 ≤ d.length))) :
    ∃ p, getHashKeyIpv6 ue d = .ok p := by
  unfold getHashKeyIpv6
  split
  · exact ⟨_, rfl⟩
  · rename_i hb
    have hb' : 0 + 40 < d.length := by simpa [inBounds_iff] using hb
    obtain ⟨nxt, hn⟩ := rd_ok (d := d) (i := 6) (by omega)
    obtain ⟨s, hs⟩ := rdN_ok (d := d) (i := 8) (n := 16) (by omega)
    obtain ⟨t, ht⟩ := rdN_ok (d := d) (i := 24) (n := 16) (by omega)
    obtain ⟨w, hw⟩ := walkExt_turns_ok true d nxt 40
    simp only [hn, hs, ht, hw, Res.ok_bind]
    cases w with
    | none => exact ⟨_, rfl⟩
    | some w =>
      obtain ⟨t, pos⟩ := w
      dsimp only
      have hc := h nxt t pos (rd_some hn) (walkExt_chain d _ _ _ _ _ hw)
      by_cases h44 : t = 44
      · subst h44
        obtain ⟨hl, hfrag⟩ := hc.2 rfl
        have hn' : d[pos]? = some (d[pos]'(by omega)) := List.getElem?_eq_getElem _
        have hr' : d[pos + 1]? = some (d[pos + 1]'(by omega)) := List.getElem?_eq_getElem _
        have h2' : d[pos + 2]? = some (d[pos + 2]'(by omega)) := List.getElem?_eq_getElem _
        have h3' : d[pos + 3]? = some (d[pos + 3]'(by omega)) := List.getElem?_eq_getElem _
        have h23 : rd16 d (pos + 2) = .ok (d[pos + 2]'(by omega), d[pos + 3]'(by omega)) := by
          unfold rd16 rd; rw [h2', h3']; rfl
        obtain ⟨i0, hi0⟩ := rd16_ok (d := d) (i := pos + 4) (by omega)
        obtain ⟨i1, hi1⟩ := rd16_ok (d := d) (i := pos + 6) (by omega)
        simp only [if_true, h23, hi0, hi1, Res.ok_bind]
        split
        · rename_i hoff
          obtain ⟨he, h58⟩ := hfrag _ _ _ _ hn' hr' h2' h3' hoff
          rw [walkFrag_next d (turns d) pos _ _ (by unfold turns; omega) hn' hr' he]
          simp only [Res.ok_bind]
          exact ipv6Upper_ok _ _ _ _ _ _ _ _ h58
        · exact ⟨_, rfl⟩
      · simp only [h44, if_false]
        exact ipv6Upper_ok _ _ _ _ _ _ _ _ hc.1

/-- With a bound on the turns beyond which nothing changes, no IPv4 packet hangs. -/
theorem ipv4_no_hang (ue : Nat) (d : Packet) : getHashKeyIpv4 ue d ≠ .hang := by
  intro h
  unfold getHashKeyIpv4 at h
  split at h
  · simp at h
  · rename_i hb
    have hb' : 0 + 20 < d.length := by simpa [inBounds_iff] using hb
    obtain ⟨b0, h0⟩ := rd_ok (d := d) (i := 0) (by omega)
    obtain ⟨f, hf⟩ := rd16_ok (d := d) (i := 6) (by omega)
    obtain ⟨i, hi⟩ := rd16_ok (d := d) (i := 4) (by omega)
    obtain ⟨s, hs⟩ := rdN_ok (d := d) (i := 12) (n := 4) (by omega)
    obtain ⟨t, ht⟩ := rdN_ok (d := d) (i := 16) (n := 4) (by omega)
    obtain ⟨p, hp⟩ := rd_ok (d := d) (i := 9) (by omega)
    simp only [h0, hf, hi, hs, ht, hp, Res.ok_bind] at h
    split at h
    · simp at h
    · split at h
      · simp at h
      · by_cases h1 : p = 1
        · subst h1
          simp only [if_true] at h
          have hrd : ∀ (j : Nat), rd d j = .ub ∨ ∃ b, rd d j = .ok b := by
            intro j; unfold rd; split
            · exact Or.inr ⟨_, rfl⟩
            · exact Or.inl rfl
          rcases hrd (4 * (b0.toNat % 16)) with hr | ⟨a, ha⟩
          · rw [hr] at h; simp at h
          · rw [ha] at h
            simp only [Res.ok_bind] at h
            split at h
            · split at h
              · simp at h
              · obtain ⟨r, hr⟩ := innerV4_ok ue d (4 * (b0.toNat % 16))
                rw [hr] at h; simp at h
            · split at h
              · unfold rd16 at h
                rcases hrd (4 * (b0.toNat % 16) + 4) with hr | ⟨a, ha⟩
                · rw [hr] at h; simp at h
                · rw [ha] at h
                  rcases hrd (4 * (b0.toNat % 16) + 4 + 1) with hr | ⟨a, ha⟩
                  · rw [hr] at h; simp at h
                  · rw [ha] at h; simp at h
              · simp at h
        · simp only [h1, if_false] at h
          split at h
          · simp at h
          · obtain ⟨r, hr⟩ := portsPart_ok ue d p (4 * (b0.toNat % 16)) false
              { src := mapped4 s, dst := mapped4 t, ud := Key.zero.ud, proto := (p, 0), sport := Key.zero.sport, dport := Key.zero.dport }
              (if decide (ntohs f % 16384 ≠ 0) = true then 1 else 0)
              (if decide (ntohs f % 16384 ≠ 0) = true then some (i, (0, 0)) else none)
            rw [hr] at h; simp at h

theorem rd_no_hang (d : Packet) (j : Nat) : rd d j = .ub ∨ ∃ b, rd d j = .ok b := by
  unfold rd; split
  · exact Or.inr ⟨_, rfl⟩
  · exact Or.inl rfl

theorem rd16_no_hang (d : Packet) (j : Nat) : rd16 d j = .ub ∨ ∃ b, rd16 d j = .ok b := by
  unfold rd16
  rcases rd_no_hang d j with h | ⟨a, h⟩
  · rw [h]; left; rfl
  · rw [h]
    rcases rd_no_hang d (j + 1) with h | ⟨a, h⟩
    · rw [h]; left; rfl
    · rw [h]; right; exact ⟨_, rfl⟩

theorem ipv6Upper_no_hang (ue : Nat) (d : Packet) (sa da : List UInt8) (frag : Bool) (f : Option (Raw16 × Raw16))
    (t : UInt8) (hdr : Nat) : ipv6Upper ue d sa da frag f t hdr ≠ .hang := by
  intro h
  unfold ipv6Upper at h
  dsimp only at h
  by_cases ht : t = 58
  · simp only [ht, if_true] at h
    rcases rd_no_hang d hdr with hr | ⟨a, hr⟩
    · rw [hr] at h; simp at h
    · rw [hr] at h
      simp only [Res.ok_bind] at h
      split at h
      · split at h
        · simp at h
        · obtain ⟨r, hr⟩ := innerV6_ok ue d hdr
          rw [hr] at h; simp at h
      · split at h
        · rcases rd16_no_hang d (hdr + 4) with hr | ⟨a, hr⟩ <;> rw [hr] at h <;> simp at h
        · simp at h
  · simp only [ht, if_false] at h
    split at h
    · simp at h
    · obtain ⟨r, hr⟩ := portsPart_ok ue d t hdr false
        { src := sa, dst := da, ud := Key.zero.ud, proto := (t, 0), sport := Key.zero.sport, dport := Key.zero.dport }
        (if frag = true then 1 else 0) f
      rw [hr] at h; simp at h

theorem ipv6_no_hang (ue : Nat) (d : Packet)
    (h : ∀ nxt pos n o0 o1, d[6]? = some nxt → ChainEnd d nxt 40 44 pos → d[pos]? = some n →
      d[pos + 2]? = some o0 → d[pos + 3]? = some o1 → (o0.toNat * 256 + o1.toNat) / 8 = 0 → ¬ IsExt n) :
    getHashKeyIpv6 ue d ≠ .hang := by
  intro hh
  unfold getHashKeyIpv6 at hh
  split at hh
  · simp at hh
  · rename_i hb
    have hb' : 0 + 40 < d.length := by simpa [inBounds_iff] using hb
    obtain ⟨nxt, hn⟩ := rd_ok (d := d) (i := 6) (by omega)
    obtain ⟨s, hs⟩ := rdN_ok (d := d) (i := 8) (n := 16) (by omega)
    obtain ⟨t, ht⟩ := rdN_ok (d := d) (i := 24) (n := 16) (by omega)
    obtain ⟨w, hw⟩ := walkExt_turns_ok true d nxt 40
    simp only [hn, hs, ht, hw, Res.ok_bind] at hh
    cases w with
    | none => simp at hh
    | some w =>
      obtain ⟨t, pos⟩ := w
      dsimp only at hh
      by_cases h44 : t = 44
      · subst h44
        simp only [if_true] at hh
        rcases rd16_no_hang d (pos + 2) with hr | ⟨o, ho⟩
        · rw [hr] at hh; simp at hh
        · rw [ho] at hh
          rcases rd16_no_hang d (pos + 4) with hr | ⟨i0, hi0⟩
          · rw [hr] at hh; simp at hh
          · rw [hi0] at hh
            rcases rd16_no_hang d (pos + 6) with hr | ⟨i1, hi1⟩
            · rw [hr] at hh; simp at hh
            · rw [hi1] at hh
              simp only [Res.ok_bind] at hh
              split at hh
              · rename_i hoff
                have hlt : pos + 3 < d.length := by
                  apply Classical.byContradiction
                  intro hc
                  have : rd d (pos + 2 + 1) = .ub := by
                    unfold rd; rw [List.getElem?_eq_none (by omega)]
                  unfold rd16 at ho
                  rw [this] at ho
                  rcases rd_no_hang d (pos + 2) with hr | ⟨b, hr⟩ <;> rw [hr] at ho <;> simp at ho
                have hn' : d[pos]? = some (d[pos]'(by omega)) := List.getElem?_eq_getElem _
                have hr' : d[pos + 1]? = some (d[pos + 1]'(by omega)) := List.getElem?_eq_getElem _
                have h2' : d[pos + 2]? = some (d[pos + 2]'(by omega)) := List.getElem?_eq_getElem _
                have h3' : d[pos + 3]? = some (d[pos + 3]'(by omega)) := List.getElem?_eq_getElem _
                have h23 : rd16 d (pos + 2) = .ok (d[pos + 2]'(by omega), d[pos + 3]'(by omega)) := by
                  unfold rd16 rd; rw [h2', h3']; rfl
                rw [h23] at ho
                simp only [Res.ok.injEq] at ho
                rw [← ho] at hoff
                have he := h nxt pos _ _ _ (rd_some hn) (walkExt_chain d _ _ _ _ _ hw) hn' h2' h3' hoff
                rw [walkFrag_next d (turns d) pos _ _ (by unfold turns; omega) hn' hr' he] at hh
                exact ipv6Upper_no_hang _ _ _ _ _ _ _ _ hh
              · simp at hh
      · simp only [h44, if_false] at hh
        exact ipv6Upper_no_hang _ _ _ _ _ _ _ _ hh

end Nfqlb
