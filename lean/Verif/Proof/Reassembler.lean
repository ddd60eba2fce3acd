import Verif.Spec.Reassembler

/-! Lemmas about the reassembler. -/

set_option autoImplicit false

namespace Nfqlb.Ra

/-- The loop never runs out of fuel. -/
theorem loop_no_hang (ff fl : Nat) (more : Bool) : ∀ (fuel : Nat) (del : Bool) (pool : HolePool) (l : List Hole),
    2 * l.length + pool.length < fuel → loop ff fl more fuel del pool l ≠ .hang ∧ loop ff fl more fuel del pool l ≠ .die
  | 0, _, _, _, h => by omega
  | _ + 1, _, _, [], _ => by simp [loop]
  | fuel + 1, del, pool, x :: rest, h => by
    simp only [List.length_cons] at h
    have key : ∀ d p, 2 * rest.length + List.length p < fuel → _ := fun d p hh => loop_no_hang ff fl more fuel d p rest hh
    unfold loop
    split
    · split
      · exact key _ _ (by simp; omega)
      · have := key false pool (by omega)
        rcases hc : loop ff fl more fuel false pool rest with ⟨l, p⟩ | _ | _ | _ <;> simp_all
    · split
      · split
        · cases pool with
          | nil => simp
          | cons s pool =>
            have := loop_no_hang ff fl more fuel false pool (s :: rest) (by simp at *; omega)
            rcases hc : loop ff fl more fuel false pool (s :: rest) with ⟨l, p⟩ | _ | _ | _ <;> simp_all
        · have := key false pool (by omega)
          rcases hc : loop ff fl more fuel false pool rest with ⟨l, p⟩ | _ | _ | _ <;> simp_all
      · split
        · have := key false pool (by omega)
          rcases hc : loop ff fl more fuel false pool rest with ⟨l, p⟩ | _ | _ | _ <;> simp_all
        · exact key _ _ (by simp; omega)

/-- No item is lost and none is used twice. -/
theorem loop_count (ff fl : Nat) (more : Bool) : ∀ (fuel : Nat) (del : Bool) (pool : HolePool) (l : List Hole) (l' : List Hole) (p' : HolePool),
    loop ff fl more fuel del pool l = .ok (l', p') → l'.length + p'.length = l.length + pool.length
  | 0, _, _, _, _, _, h => by simp [loop] at h
  | _ + 1, _, _, [], _, _, h => by
    simp only [loop, Res.ok.injEq, Prod.mk.injEq] at h
    obtain ⟨rfl, rfl⟩ := h; rfl
  | fuel + 1, del, pool, x :: rest, l', p', h => by
    have key : ∀ d p, loop ff fl more fuel d p rest = .ok (l', p') → l'.length + p'.length = rest.length + p.length :=
      fun d p hh => loop_count ff fl more fuel d p rest l' p' hh
    have key2 : ∀ (y : Hole) (p : HolePool) (r : List Hole),
        (do let (l, p) ← loop ff fl more fuel false p r; return (y :: l, p) : Res (List Hole × HolePool)) = .ok (l', p') →
          l'.length + p'.length = r.length + p.length + 1 := by
      intro y p r hh
      rcases hc : loop ff fl more fuel false p r with ⟨l, q⟩ | _ | _ | _ <;> rw [hc] at hh
      · simp only [Res.ok_bind, Res.pure_eq, Res.ok.injEq, Prod.mk.injEq] at hh
        obtain ⟨rfl, rfl⟩ := hh
        have := loop_count ff fl more fuel false p r l q hc
        simp only [List.length_cons]; omega
      all_goals simp at hh
    unfold loop at h
    split at h
    · split at h
      · have := key _ _ h; simp only [List.length_cons] at *; omega
      · have := key2 _ _ _ h; simp only [List.length_cons] at *; omega
    · split at h
      · split at h
        · cases pool with
          | nil => simp at h
          | cons s pool => have := key2 _ _ _ h; simp only [List.length_cons] at *; omega
        · have := key2 _ _ _ h; simp only [List.length_cons] at *; omega
      · split at h
        · have := key2 _ _ _ h; simp only [List.length_cons] at *; omega
        · have := key _ _ h; simp only [List.length_cons] at *; omega

theorem handle_no_hang (holes : List Hole) (ff len : Nat) (more : Bool) (pool : HolePool) :
    handleFragment holes ff len more pool ≠ .hang ∧ handleFragment holes ff len more pool ≠ .die := by
  unfold handleFragment
  split
  · simp
  · have := loop_no_hang ff (u32 (ff + len + 4294967295)) more (2 * holes.length + pool.length + 1) false pool holes (by omega)
    rcases hc : loop ff (u32 (ff + len + 4294967295)) more (2 * holes.length + pool.length + 1) false pool holes with ⟨l, p⟩ | _ | _ | _ <;> simp_all

theorem handle_count {holes : List Hole} {ff len : Nat} {more : Bool} {pool : HolePool} {rc : Nat} {l : List Hole} {p : HolePool}
    (h : handleFragment holes ff len more pool = .ok (rc, l, p)) : l.length + p.length = holes.length + pool.length := by
  unfold handleFragment at h
  split at h
  · simp only [Res.ok.injEq, Prod.mk.injEq] at h
    obtain ⟨_, rfl, rfl⟩ := h; rfl
  · rcases hc : loop ff (u32 (ff + len + 4294967295)) more (2 * holes.length + pool.length + 1) false pool holes with ⟨l1, p1⟩ | _ | _ | _ <;>
      rw [hc] at h
    · simp only [Res.ok_bind, Res.pure_eq, Res.ok.injEq, Prod.mk.injEq] at h
      obtain ⟨_, rfl, rfl⟩ := h
      exact loop_count _ _ _ _ _ _ _ _ _ hc
    all_goals simp at h

/-- What is known after the fragments `hist` of a datagram of `L` bytes: one hole at most, and it is what is missing. -/
def Inv (L : Nat) (hist : List Frag) (hs : List Hole) : Prop :=
  (hs = [] ∧ (∃ f ∈ hist, f.more = false) ∧ ∀ b < L, Covered hist b) ∨
  (∃ a c, hs = [⟨a, c⟩] ∧ a ≤ c ∧ a < L ∧ ((∃ f ∈ hist, f.more = false) → c < L) ∧ ((¬∃ f ∈ hist, f.more = false) → c = infinity) ∧
    ∀ b < L, Covered hist b ↔ ¬(a ≤ b ∧ b ≤ c))

theorem covered_append (hist : List Frag) (f : Frag) (b : Nat) :
    Covered (hist ++ [f]) b ↔ Covered hist b ∨ (f.first ≤ b ∧ b < f.first + f.len) := by
  unfold Covered
  constructor
  · rintro ⟨g, hg, h⟩
    rcases List.mem_append.1 hg with h1 | h1
    · exact .inl ⟨g, h1, h⟩
    · simp only [List.mem_singleton] at h1; subst h1; exact .inr h
  · rintro (⟨g, hg, h⟩ | h)
    · exact ⟨g, List.mem_append_left _ hg, h⟩
    · exact ⟨f, by simp, h⟩

theorem last_append (hist : List Frag) (f : Frag) :
    (∃ g ∈ hist ++ [f], g.more = false) ↔ (∃ g ∈ hist, g.more = false) ∨ f.more = false := by
  constructor
  · rintro ⟨g, hg, h⟩
    rcases List.mem_append.1 hg with h1 | h1
    · exact .inl ⟨g, h1, h⟩
    · simp only [List.mem_singleton] at h1; subst h1; exact .inr h
  · rintro (⟨g, hg, h⟩ | h)
    · exact ⟨g, List.mem_append_left _ hg, h⟩
    · exact ⟨f, by simp, h⟩

/-- The four ways in which one hole is changed. -/
theorem loop_one (ff fl : Nat) (more : Bool) (fuel : Nat) (pool : HolePool) (a c : Nat) (hs : ¬(a < ff ∧ fl < c ∧ more = true ∧ ff ≤ c)) :
    loop ff fl more (fuel + 2) false pool [⟨a, c⟩] = .ok (
      if c < ff ∨ fl < a then ([⟨a, c⟩], pool)
      else if a < ff then ([⟨a, ff - 1⟩], pool)
      else if fl < c ∧ more = true then ([⟨u32 (fl + 1), c⟩], pool)
      else ([], ⟨a, c⟩ :: pool)) := by
  unfold loop
  by_cases h1 : c < ff ∨ fl < a
  · simp [h1, loop]
  · by_cases h2 : a < ff
    · have : ¬(fl < c ∧ more = true) := by
        intro h; exact hs ⟨h2, h.1, h.2, by omega⟩
      simp [h1, h2, loop, this]
    · by_cases h3 : fl < c ∧ more = true
      · simp [h1, h2, h3, loop]
      · simp [h1, h2, h3, loop]

theorem u32_last {x y : Nat} (h : x + y ≤ 4294967295) (hy : 0 < y) : u32 (x + y + 4294967295) = x + y - 1 := by
  unfold u32; omega

theorem u32_small {x : Nat} (h : x ≤ 4294967295) : u32 x = x := by
  unfold u32; omega

theorem handle_eq (holes : List Hole) (ff len : Nat) (more : Bool) (pool : HolePool) (hl : 0 < len) (hb : ff + len ≤ 4294967295) :
    handleFragment holes ff len more pool = (do
      let (l, p) ← loop ff (ff + len - 1) more (2 * holes.length + pool.length + 1) false pool holes
      return (if l = [] then 0 else 1, l, p)) := by
  unfold handleFragment
  rw [if_neg (by omega), u32_last hb hl]

/-- One more fragment. -/
theorem inv_step {L : Nat} {hist : List Frag} {hs : List Hole} (hL : L ≤ infinity) (hi : Inv L hist hs) (f : Frag) (hf : Genuine L f)
    (hadj : f.more = true → f.first = 0 ∨ Covered hist (f.first - 1) ∨ Covered hist (f.first + f.len)) (pool : HolePool) :
    ∃ rc hs' p', handleFragment hs f.first f.len f.more pool = .ok (rc, hs', p') ∧ Inv L (hist ++ [f]) hs' ∧ (rc = 0 ↔ hs' = []) := by
  obtain ⟨ff, len, more⟩ := f
  obtain ⟨hlen, hg⟩ := hf
  simp only at hlen hg hadj ⊢
  unfold infinity at hL
  have hend : ff + len ≤ L := by split at hg <;> omega
  rw [handle_eq _ _ _ _ _ hlen (by omega)]
  rcases hi with ⟨rfl, hlast, hcov⟩ | ⟨a, c, rfl, hac, haL, hlst, hnl, hcov⟩
  · refine ⟨0, [], pool, by simp [loop], .inl ⟨rfl, ?_, ?_⟩, by simp⟩
    · exact (last_append _ _).2 (.inl hlast)
    · exact fun b hb => (covered_append _ _ _).2 (.inl (hcov b hb))
  · have hns : ¬(a < ff ∧ ff + len - 1 < c ∧ more = true ∧ ff ≤ c) := by
      rintro ⟨h1, h2, h3, h4⟩
      subst h3
      simp only [if_true] at hg
      rcases hadj rfl with h | h | h
      · omega
      · exact ((hcov (ff - 1) (by omega)).1 h) (by omega)
      · exact ((hcov (ff + len) hg).1 h) (by omega)
    have hcinf : c ≤ infinity := by
      by_cases h : ∃ f ∈ hist, f.more = false
      · have := hlst h; unfold infinity; omega
      · exact Nat.le_of_eq (hnl h)
    unfold infinity at hcinf
    rw [show 2 * [(⟨a, c⟩ : Hole)].length + pool.length + 1 = (pool.length + 1) + 2 from by simp; omega, loop_one _ _ _ _ _ _ _ hns]
    have hcase : more = false → ¬(∃ f ∈ hist, f.more = false) → c = 4294967295 := fun _ h => hnl h
    simp only [Res.ok_bind, Res.pure_eq]
    by_cases h1 : c < ff ∨ ff + len - 1 < a
    · simp only [h1, if_true]
      refine ⟨1, [⟨a, c⟩], pool, by simp, .inr ⟨a, c, rfl, hac, haL, ?_, ?_, ?_⟩, by simp⟩
      · intro h
        by_cases h' : ∃ f ∈ hist, f.more = false
        · exact hlst h'
        · rcases (last_append _ _).1 h with h'' | h''
          · exact absurd h'' h'
          · simp only at h''; subst h''
            have := hcase rfl h'
            simp at hg; omega
      · intro h
        exact hnl (fun h' => h ((last_append _ _).2 (.inl h')))
      · intro b hb
        rw [covered_append, hcov b hb]
        simp only
        omega
    · simp only [h1, if_false]
      by_cases h2 : a < ff
      · simp only [h2, if_true]
        have hnm : ¬(ff + len - 1 < c ∧ more = true) := by
          intro h; exact hns ⟨h2, h.1, h.2, by omega⟩
        refine ⟨1, [⟨a, ff - 1⟩], pool, by simp, .inr ⟨a, ff - 1, rfl, by omega, haL, ?_, ?_, ?_⟩, by simp⟩
        · intro; omega
        · intro h
          exfalso
          have hm : more = true := by
            cases more with
            | true => rfl
            | false => exact absurd ((last_append _ _).2 (.inr rfl)) h
          subst hm
          have := hnl (fun h' => h ((last_append _ _).2 (.inl h')))
          simp [infinity] at *
          omega
        · intro b hb
          rw [covered_append, hcov b hb]
          simp only
          by_cases hm : more = true
          · have : c ≤ ff + len - 1 := by
              have : ¬(ff + len - 1 < c) := fun h => hnm ⟨h, hm⟩
              omega
            omega
          · simp only [hm] at hg
            simp at hg
            omega
      · simp only [h2, if_false]
        by_cases h3 : ff + len - 1 < c ∧ more = true
        · simp only [h3, and_self, if_true]
          obtain ⟨h3, h4⟩ := h3
          subst h4
          simp only [if_true] at hg
          rw [u32_small (by omega)]
          refine ⟨1, [⟨ff + len - 1 + 1, c⟩], pool, by simp, .inr ⟨ff + len - 1 + 1, c, rfl, by omega, by omega, ?_, ?_, ?_⟩, by simp⟩
          · intro h
            rcases (last_append _ _).1 h with h'' | h''
            · exact hlst h''
            · simp at h''
          · intro h
            exact hnl (fun h' => h ((last_append _ _).2 (.inl h')))
          · intro b hb
            rw [covered_append, hcov b hb]
            simp only
            omega
        · simp only [h3, if_false]
          have hlast : more = false ∨ ∃ f ∈ hist, f.more = false := by
            by_cases h : ∃ f ∈ hist, f.more = false
            · exact .inr h
            · left
              cases more with
              | false => rfl
              | true =>
                have := hnl h
                simp [infinity] at *
                omega
          refine ⟨0, [], ⟨a, c⟩ :: pool, by simp, .inl ⟨rfl, ?_, ?_⟩, by simp⟩
          · rcases hlast with h | h
            · exact (last_append _ _).2 (.inr h)
            · exact (last_append _ _).2 (.inl h)
          · intro b hb
            rw [covered_append, hcov b hb]
            simp only
            by_cases hm : more = true
            · have : c ≤ ff + len - 1 := by
                have : ¬(ff + len - 1 < c) := fun h => h3 ⟨h, hm⟩
                omega
              omega
            · simp only [hm] at hg
              simp at hg
              omega

theorem inv_start (L : Nat) (hL : 0 < L) (hL2 : L ≤ infinity) : Inv L [] [⟨0, infinity⟩] := by
  refine .inr ⟨0, infinity, rfl, by simp, hL, by simp, by simp, ?_⟩
  intro b hb
  unfold Covered
  have : b ≤ infinity := by omega
  simp [this]

theorem inv_feed (L : Nat) (hL2 : L ≤ infinity) : ∀ (fs : List (Frag × HolePool)) (hist : List Frag) (hs : List Hole), Inv L hist hs →
    (∀ f ∈ fs, Genuine L f.1) → NoGap (hist ++ fs.map Prod.fst) →
    ∃ hs', feed hs fs = .ok hs' ∧ Inv L (hist ++ fs.map Prod.fst) hs'
  | [], hist, hs, hi, _, _ => ⟨hs, rfl, by simpa using hi⟩
  | (f, p) :: fs, hist, hs, hi, hg, hn => by
    obtain ⟨rc, hs', p', he, hi', -⟩ := inv_step hL2 hi f (hg (f, p) (by simp))
      (hn hist f (fs.map Prod.fst) (by simp)) p
    have heq : hist ++ ((f, p) :: fs).map Prod.fst = (hist ++ [f]) ++ fs.map Prod.fst := by simp
    rw [heq] at hn ⊢
    obtain ⟨hs'', h1, h2⟩ := inv_feed L hL2 fs (hist ++ [f]) hs' hi' (fun g hgm => hg g (List.mem_cons_of_mem _ hgm)) hn
    refine ⟨hs'', ?_, h2⟩
    unfold feed
    rw [he]
    exact h1

theorem inv_complete {L : Nat} {hist : List Frag} {hs : List Hole} (hi : Inv L hist hs) : hs = [] ↔ Complete L hist := by
  rcases hi with ⟨rfl, hlast, hcov⟩ | ⟨a, c, rfl, hac, haL, hlst, hnl, hcov⟩
  · exact ⟨fun _ => ⟨hlast, hcov⟩, fun _ => rfl⟩
  · constructor
    · intro h; cases h
    · rintro ⟨-, h⟩
      exact absurd (h a haL) (fun h' => ((hcov a haL).1 h') ⟨Nat.le_refl _, hac⟩)

/-! ### The packet -/

theorem rd_ok {data : Packet} {i : Nat} (h : i < data.length) : rd data i = .ok data[i] := by
  unfold rd; rw [List.getElem?_eq_getElem h]

theorem rd_some {data : Packet} {i : Nat} {b : UInt8} (h : data[i]? = some b) : rd data i = .ok b := by
  unfold rd; rw [h]

theorem extLoop_safe (data : Packet) : ∀ (fuel : Nat) (h : UInt8) (pos : Nat), data.length < fuel + pos → 0 < fuel →
    ∃ r, extLoop data fuel h pos = .ok r
  | 0, _, _, _, h => by omega
  | fuel + 1, h, pos, hf, _ => by
    unfold extLoop
    split
    · split
      · exact ⟨_, rfl⟩
      · rename_i hb
        simp [inBounds] at hb
        rw [rd_ok (by omega), rd_ok (by omega)]
        simp only [Res.ok_bind]
        split
        · exact ⟨_, rfl⟩
        · rename_i hl
          have : 0 < (data[pos + 1]).toNat := by
            rcases Nat.eq_zero_or_pos (data[pos + 1]).toNat with h0 | h0
            · exact absurd (UInt8.toNat_inj.1 h0) hl
            · exact h0
          exact extLoop_safe data fuel _ _ (by omega) (by omega)
    · exact ⟨_, rfl⟩

theorem parse_safe (data : Packet) (h : 0 < data.length) (h6 : data[0].toNat / 16 = 6 → 7 ≤ data.length) : ∃ r, parseFragment data = .ok r := by
  unfold parseFragment
  rw [rd_ok h]
  simp only [Res.ok_bind]
  split
  · split
    · exact ⟨_, rfl⟩
    · rename_i hb
      simp [inBounds] at hb
      simp only [rd16]
      rw [rd_ok (by omega), rd_ok (by omega), rd_ok (by omega), rd_ok (by omega)]
      simp only [Res.ok_bind, Res.pure_eq]
      split
      · exact ⟨_, rfl⟩
      · exact ⟨_, rfl⟩
  · split
    · rename_i hv
      rw [rd_ok (by have := h6 hv; omega)]
      simp only [Res.ok_bind]
      obtain ⟨r, hr⟩ := extLoop_safe data (data.length + 1) (data[6]'(by have := h6 hv; omega)) 40 (by omega) (by omega)
      rw [hr]
      simp only [Res.ok_bind]
      rcases r with _ | ⟨ht, pos⟩
      · exact ⟨_, rfl⟩
      · simp only
        split
        · split
          · exact ⟨_, rfl⟩
          · rename_i hb
            simp [inBounds] at hb
            simp only [rd16]
            rw [rd_ok (by omega), rd_ok (by omega)]
            exact ⟨_, rfl⟩
        · exact ⟨_, rfl⟩
    · exact ⟨_, rfl⟩

theorem parse_v4 {data : Packet} {f : Frag} (h : CarriesV4 data f) : parseFragment data = .ok (.inr (f.first, f.len, f.more)) := by
  obtain ⟨ihl, fo, h1, h2, h3, h4, ⟨b0, hb0, hb0'⟩, ⟨a, b, ha, hb, htl⟩, ⟨c, d, hc, hd, hfo⟩, h5, h6⟩ := h
  have hbnd := a.toNat_lt
  have hbnd2 := b.toNat_lt
  unfold parseFragment
  simp only [rd16]
  rw [rd_some hb0, rd_some ha, rd_some hb, rd_some hc, rd_some hd]
  simp only [Res.ok_bind, Res.pure_eq]
  have hne : ¬(data.length ≠ ntohs (a, b)) := by simp only [ntohs]; omega
  rw [if_pos (by omega), if_neg (by simp [inBounds]; omega), if_neg hne]
  have hn : ntohs (c, d) = c.toNat * 256 + d.toNat := rfl
  have e1 : ntohs (c, d) % 8192 * 8 = f.first := by
    split at hfo <;> omega
  have e2 : u32 (data.length + 4294967296 - b0.toNat % 16 * 4) = f.len := by
    unfold u32; omega
  have e3 : decide (ntohs (c, d) / 8192 % 2 = 1) = f.more := by
    cases hm : f.more <;> simp [hm] at hfo <;> simp <;> omega
  rw [e1, e2, e3]

theorem empty_v4 {data : Packet} {b : UInt8} (hb : data[0]? = some b) (h4 : b.toNat / 16 = 4) (hi : 5 ≤ b.toNat % 16) (hl : data.length = 4 * (b.toNat % 16)) :
    parseFragment data = .ok (.inl (-1)) ∨ ∃ x y, parseFragment data = .ok (.inr (x, 0, y)) := by
  unfold parseFragment
  rw [rd_some hb]
  simp only [Res.ok_bind, rd16]
  rw [if_pos h4]
  split
  · exact .inl rfl
  · have e2 : u32 (data.length + 4294967296 - b.toNat % 16 * 4) = 0 := by
      unfold u32; omega
    obtain ⟨x2, h2⟩ := List.getElem?_eq_some_iff.mpr ⟨(show 2 < data.length by omega), rfl⟩ |> fun h => (⟨_, h⟩ : ∃ x, data[2]? = some x)
    obtain ⟨x3, h3⟩ := List.getElem?_eq_some_iff.mpr ⟨(show 3 < data.length by omega), rfl⟩ |> fun h => (⟨_, h⟩ : ∃ x, data[3]? = some x)
    obtain ⟨x6, h6⟩ := List.getElem?_eq_some_iff.mpr ⟨(show 6 < data.length by omega), rfl⟩ |> fun h => (⟨_, h⟩ : ∃ x, data[6]? = some x)
    obtain ⟨x7, h7⟩ := List.getElem?_eq_some_iff.mpr ⟨(show 7 < data.length by omega), rfl⟩ |> fun h => (⟨_, h⟩ : ∃ x, data[7]? = some x)
    rw [rd_some h2, rd_some h3, rd_some h6, rd_some h7]
    simp only [Res.ok_bind, Res.pure_eq, e2]
    split
    · exact .inl rfl
    · exact .inr ⟨_, _, rfl⟩

theorem empty_v6 {data : Packet} {b : UInt8} (hb : data[0]? = some b) (h6 : b.toNat / 16 = 6) (hn : data[6]? = some 44) (hl : data.length = 48) :
    parseFragment data = .ok (.inl (-1)) := by
  unfold parseFragment
  rw [rd_some hb, rd_some hn]
  simp only [Res.ok_bind]
  rw [if_neg (by omega), if_pos h6]
  have : extLoop data (data.length + 1) 44 40 = .ok (some (44, 40)) := by
    unfold extLoop
    rw [if_neg (by decide)]
  rw [this]
  simp only [Res.ok_bind, if_true]
  rw [if_pos (by simp [inBounds]; omega)]

theorem parse_v6 {data : Packet} {f : Frag} (h : CarriesV6 data f) : parseFragment data = .ok (.inr (f.first, f.len, f.more)) := by
  obtain ⟨h1, h2, h3, ⟨b0, hb0, hb0'⟩, hn, ⟨a, b, ha, hb, hfo⟩, h5⟩ := h
  unfold parseFragment
  simp only [rd16]
  rw [rd_some hb0, rd_some hn]
  simp only [Res.ok_bind]
  rw [if_neg (by omega), if_pos hb0']
  have : extLoop data (data.length + 1) 44 40 = .ok (some (44, 40)) := by
    unfold extLoop
    rw [if_neg (by decide)]
  rw [this]
  simp only [Res.ok_bind, if_true]
  rw [if_neg (by simp [inBounds]; omega), rd_some (show data[40 + 2]? = some a from ha), rd_some (show data[40 + 2 + 1]? = some b from hb)]
  simp only [Res.ok_bind, Res.pure_eq, ntohs]
  have e1 : (a.toNat * 256 + b.toNat) / 8 * 8 = f.first := by
    split at hfo <;> omega
  have e2 : u32 (data.length - 40 - 8) = f.len := by
    unfold u32; omega
  have e3 : decide (b.toNat % 2 = 1) = f.more := by
    cases hm : f.more <;> simp [hm] at hfo <;> simp <;> omega
  rw [e1, e2, e3]

theorem raHandle_of_parse {data : Packet} {f : Frag} (h : parseFragment data = .ok (.inr (f.first, f.len, f.more))) (r : Reass) (pool : HolePool)
    {rc : Nat} {l : List Hole} {p : HolePool} (hh : handleFragment r.holes f.first f.len f.more pool = .ok (rc, l, p)) :
    raHandleFragment (some r) data pool = .ok ((rc : Int), some { r with holes := l }, p) := by
  unfold raHandleFragment
  simp only [h, Res.ok_bind, hh, Res.pure_eq]

/-! ### The number of items -/

theorem parse_no_hang (data : Packet) : parseFragment data ≠ .hang ∧ parseFragment data ≠ .die := by
  by_cases h : 0 < data.length
  · by_cases h6 : data[0].toNat / 16 = 6 → 7 ≤ data.length
    · obtain ⟨r, hr⟩ := parse_safe data h h6
      simp [hr]
    · have ⟨hv, hl⟩ : data[0].toNat / 16 = 6 ∧ ¬7 ≤ data.length := by
        constructor
        · exact Classical.byContradiction fun hh => h6 (fun x => absurd x hh)
        · exact fun hh => h6 (fun _ => hh)
      unfold parseFragment
      rw [rd_ok h]
      simp only [Res.ok_bind]
      rw [if_neg (by omega), if_pos hv]
      have : rd data 6 = .ub := by unfold rd; rw [List.getElem?_eq_none (by omega)]
      rw [this]; simp
  · have : rd data 0 = .ub := by unfold rd; rw [List.getElem?_eq_none (by omega)]
    unfold parseFragment
    rw [this]; simp

theorem raHandle_no_hang (r : Option Reass) (data : Packet) (pool : HolePool) :
    raHandleFragment r data pool ≠ .hang ∧ raHandleFragment r data pool ≠ .die := by
  unfold raHandleFragment
  cases r with
  | none => simp
  | some r =>
    simp only
    have h1 := parse_no_hang data
    rcases hp : parseFragment data with x | _ | _ | _
    · simp only [Res.ok_bind]
      rcases x with rc | ⟨first, len, more⟩
      · simp
      · simp only
        have h2 := handle_no_hang r.holes first len more pool
        rcases hh : handleFragment r.holes first len more pool with ⟨rc, l, p⟩ | _ | _ | _ <;> simp_all
    all_goals simp_all

/-- Items of one object. -/
def use (r : Option Reass) : Nat := match r with | none => 0 | some r => r.holes.length + 1

theorem raHandle_count {r : Option Reass} {data : Packet} {pool : HolePool} {rc : Int} {r' : Option Reass} {p : HolePool}
    (h : raHandleFragment r data pool = .ok (rc, r', p)) : use r' + p.length = use r + pool.length := by
  unfold raHandleFragment at h
  cases r with
  | none =>
    simp only [Res.ok.injEq, Prod.mk.injEq] at h
    obtain ⟨_, rfl, rfl⟩ := h; rfl
  | some r =>
    simp only at h
    rcases hp : parseFragment data with x | _ | _ | _ <;> rw [hp] at h
    · simp only [Res.ok_bind] at h
      rcases x with rc | ⟨first, len, more⟩
      · simp only [Res.ok.injEq, Prod.mk.injEq] at h
        obtain ⟨_, rfl, rfl⟩ := h; rfl
      · simp only at h
        rcases hh : handleFragment r.holes first len more pool with ⟨rc1, l, p1⟩ | _ | _ | _ <;> rw [hh] at h
        · simp only [Res.ok_bind, Res.pure_eq, Res.ok.injEq, Prod.mk.injEq] at h
          obtain ⟨_, rfl, rfl⟩ := h
          have := handle_count hh
          simp only [use]; omega
        all_goals simp at h
    all_goals simp at h

theorem held_cons (r : Option Reass) (l : List (Option Reass)) : held (r :: l) = use r + held l := by
  cases r <;> simp [held, use]

theorem held_set : ∀ (l : List (Option Reass)) (i : Nat) (r r' : Option Reass), l[i]? = some r → held (l.set i r') + use r = held l + use r'
  | [], _, _, _, h => by simp at h
  | x :: l, 0, r, r', h => by
    simp only [List.getElem?_cons_zero, Option.some.injEq] at h
    subst h
    simp only [List.set_cons_zero, held_cons]; omega
  | x :: l, i + 1, r, r', h => by
    simp only [List.getElem?_cons_succ] at h
    have := held_set l i r r' h
    simp only [List.set_cons_succ, held_cons]; omega

theorem held_erase : ∀ (l : List (Option Reass)) (i : Nat) (r : Option Reass), l[i]? = some r → held (l.eraseIdx i) + use r = held l
  | [], _, _, h => by simp at h
  | x :: l, 0, r, h => by
    simp only [List.getElem?_cons_zero, Option.some.injEq] at h
    subst h
    simp only [List.eraseIdx_cons_zero, held_cons]; omega
  | x :: l, i + 1, r, h => by
    simp only [List.getElem?_cons_succ] at h
    have := held_erase l i r h
    simp only [List.eraseIdx_cons_succ, held_cons]; omega

theorem step_count {s s' : State} {o : Op} (h : step s o = .ok s') : held s'.live + s'.pool.length = held s.live + s.pool.length := by
  cases o with
  | new =>
    simp only [step, Res.ok.injEq] at h
    subst h
    simp only [held_cons]
    rcases hp : s.pool with _ | ⟨a, _ | ⟨b, p⟩⟩ <;> simp [raNew, use]; omega
  | frag i data =>
    simp only [step] at h
    split at h
    · simp only [Res.ok.injEq] at h; subst h; rfl
    · rename_i r hr
      rcases hh : raHandleFragment r data s.pool with ⟨rc, r', p⟩ | _ | _ | _ <;> rw [hh] at h
      · simp only [Res.ok_bind, Res.pure_eq, Res.ok.injEq] at h
        subst h
        have h1 := raHandle_count hh
        have h2 := held_set s.live i r r' hr
        simp only
        omega
      all_goals simp at h
  | destroy i =>
    simp only [step] at h
    split at h
    · simp only [Res.ok.injEq] at h; subst h; rfl
    · rename_i r hr
      simp only [Res.ok.injEq] at h
      subst h
      have h2 := held_erase s.live i r hr
      cases r with
      | none => simp [use] at h2; simp [raDestroy]; omega
      | some r => simp [use] at h2; simp [raDestroy]; omega

theorem run_count : ∀ (ops : List Op) (s s' : State), run s ops = .ok s' → held s'.live + s'.pool.length = held s.live + s.pool.length
  | [], s, s', h => by simp only [run, Res.ok.injEq] at h; subst h; rfl
  | o :: ops, s, s', h => by
    simp only [run] at h
    rcases hh : step s o with s1 | _ | _ | _ <;> rw [hh] at h
    · simp only [Res.ok_bind] at h
      rw [run_count ops s1 s' h, step_count hh]
    all_goals simp at h

theorem step_no_hang (s : State) (o : Op) : step s o ≠ .hang ∧ step s o ≠ .die := by
  cases o with
  | new => simp [step]
  | frag i data =>
    simp only [step]
    split
    · simp
    · rename_i r hr
      have := raHandle_no_hang r data s.pool
      rcases hh : raHandleFragment r data s.pool with ⟨rc, r', p⟩ | _ | _ | _ <;> simp_all
  | destroy i =>
    simp only [step]
    split <;> simp

theorem run_no_hang : ∀ (ops : List Op) (s : State), run s ops ≠ .hang ∧ run s ops ≠ .die
  | [], s => by simp [run]
  | o :: ops, s => by
    simp only [run]
    have := step_no_hang s o
    rcases hh : step s o with s1 | _ | _ | _
    · exact run_no_hang ops s1
    all_goals simp_all

end Nfqlb.Ra
