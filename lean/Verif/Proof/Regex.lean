import Verif.Model.Regex

/-! Regular expressions: the matcher decides the language. -/

set_option autoImplicit false

namespace Nfqlb.Regex

/-- The language of an expression. -/
def Lang : Re → List Char → Prop
  | .none, _ => False
  | .eps, s => s = []
  | .cls p, s => ∃ c, s = [c] ∧ p c = true
  | .seq a b, s => ∃ u v, s = u ++ v ∧ Lang a u ∧ Lang b v
  | .alt a b, s => Lang a s ∨ Lang b s
  | .star a, s => ∃ l : List (List Char), s = l.flatten ∧ ∀ u ∈ l, Lang a u

theorem mkSeq_lang (a b : Re) (s : List Char) : Lang (mkSeq a b) s ↔ Lang (.seq a b) s := by
  cases a with
  | eps =>
    simp only [mkSeq, Lang]
    exact ⟨fun h => ⟨[], s, rfl, rfl, h⟩, by rintro ⟨u, v, rfl, rfl, h⟩; exact h⟩
  | _ => simp [mkSeq, Lang]

theorem mkAlt_lang (a b : Re) (s : List Char) : Lang (mkAlt a b) s ↔ Lang (.alt a b) s := by
  cases a <;> cases b <;> simp [mkAlt, Lang]

theorem nullable_iff (r : Re) : nullable r = true ↔ Lang r [] := by
  induction r with
  | none => simp [nullable, Lang]
  | eps => simp [nullable, Lang]
  | cls p => simp [nullable, Lang]
  | seq a b ha hb =>
    simp only [nullable, Lang, Bool.and_eq_true, ha, hb]
    constructor
    · rintro ⟨h1, h2⟩; exact ⟨[], [], rfl, h1, h2⟩
    · rintro ⟨u, v, h, h1, h2⟩
      have := List.append_eq_nil_iff.1 h.symm
      rw [this.1] at h1; rw [this.2] at h2; exact ⟨h1, h2⟩
  | alt a b ha hb => simp [nullable, Lang, ha, hb]
  | star a ha => simp only [nullable, Lang, true_iff]; exact ⟨[], rfl, by simp⟩

theorem star_cons (a : Re) (c : Char) : ∀ (l : List (List Char)) (s : List Char), c :: s = l.flatten → (∀ u ∈ l, Lang a u) →
    ∃ u v, s = u ++ v ∧ Lang a (c :: u) ∧ Lang (.star a) v := by
  intro l
  induction l with
  | nil => intro s h _; simp at h
  | cons x l ih =>
    intro s h hl
    cases x with
    | nil => exact ih s (by simpa using h) (fun u hu => hl u (by simp [hu]))
    | cons y x =>
      simp only [List.flatten_cons, List.cons_append, List.cons.injEq] at h
      refine ⟨x, l.flatten, h.2, ?_, l, rfl, fun u hu => hl u (by simp [hu])⟩
      rw [h.1]; exact hl _ (by simp)

theorem deriv_iff (c : Char) (r : Re) : ∀ s : List Char, Lang (deriv c r) s ↔ Lang r (c :: s) := by
  induction r with
  | none => intro s; simp [deriv, Lang]
  | eps => intro s; simp [deriv, Lang]
  | cls p =>
    intro s
    unfold deriv
    split
    · rename_i h; simp only [Lang]; constructor
      · rintro rfl; exact ⟨c, rfl, h⟩
      · rintro ⟨d, h1, h2⟩; simp at h1; exact h1.2
    · rename_i h; simp only [Lang]; constructor
      · intro h; exact h.elim
      · rintro ⟨d, h1, h2⟩; simp at h1; rw [h1.1] at h; exact absurd h2 h
  | seq a b ha hb =>
    intro s
    have key : Lang (.seq a b) (c :: s) ↔ Lang (mkSeq (deriv c a) b) s ∨ (nullable a = true ∧ Lang (deriv c b) s) := by
      rw [mkSeq_lang]; simp only [Lang, hb, nullable_iff]
      constructor
      · rintro ⟨u, v, h, h1, h2⟩
        cases u with
        | nil => right; simp at h; exact ⟨h1, by rw [h]; exact h2⟩
        | cons d u =>
          left; simp only [List.cons_append, List.cons.injEq] at h
          exact ⟨u, v, h.2, by rw [ha, h.1]; exact h1, h2⟩
      · rintro (⟨u, v, h, h1, h2⟩ | ⟨h1, h2⟩)
        · exact ⟨c :: u, v, by simp [h], (ha u).1 h1, h2⟩
        · exact ⟨[], c :: s, rfl, h1, h2⟩
    unfold deriv
    split
    · rename_i h; rw [mkAlt_lang, key]; simp only [Lang, h, true_and]
    · rename_i h; rw [key]; simp [h]
  | alt a b ha hb => intro s; unfold deriv; rw [mkAlt_lang]; simp only [Lang, ha, hb]
  | star a ha =>
    intro s
    unfold deriv; rw [mkSeq_lang]
    constructor
    · rintro ⟨u, v, h, h1, l, h2, h3⟩
      refine ⟨(c :: u) :: l, by simp [h, h2], ?_⟩
      intro w hw
      rcases List.mem_cons.1 hw with rfl | hw
      · exact (ha u).1 h1
      · exact h3 w hw
    · rintro ⟨l, h, hl⟩
      obtain ⟨u, v, h1, h2, h3⟩ := star_cons a c l s h hl
      exact ⟨u, v, h1, (ha u).2 h2, h3⟩

theorem matchesRe_iff : ∀ (s : List Char) (r : Re), matchesRe r s = true ↔ Lang r s
  | [], r => nullable_iff r
  | c :: s, r => by unfold matchesRe; rw [matchesRe_iff s, deriv_iff]

theorem lang_chr (x : Char) (s : List Char) : Lang (chr x) s ↔ s = [x] := by
  simp only [chr, Lang, beq_iff_eq]
  constructor
  · rintro ⟨c, rfl, rfl⟩; rfl
  · rintro rfl; exact ⟨x, rfl, rfl⟩

theorem lang_lit : ∀ (t s : List Char), Lang (lit t) s ↔ s = t
  | [], s => by simp [lit, Lang]
  | c :: t, s => by
    simp only [lit, Lang, lang_chr, lang_lit t]
    constructor
    · rintro ⟨u, v, h, rfl, rfl⟩; simpa using h
    · rintro rfl; exact ⟨[c], t, by simp, rfl, rfl⟩

theorem lang_star_cls (p : Char → Bool) (s : List Char) : Lang (.star (.cls p)) s ↔ ∀ c ∈ s, p c = true := by
  simp only [Lang]
  constructor
  · rintro ⟨l, rfl, h⟩ c hc
    obtain ⟨u, hu, hcu⟩ := List.mem_flatten.1 hc
    obtain ⟨d, rfl, hd⟩ := h u hu
    simp at hcu; rw [hcu]; exact hd
  · intro h
    refine ⟨s.map (fun c => [c]), ?_, ?_⟩
    · clear h; induction s with
      | nil => rfl
      | cons c s ih => simp [← ih]
    · intro u hu
      obtain ⟨c, hc, rfl⟩ := List.mem_map.1 hu
      exact ⟨c, rfl, h c hc⟩

theorem lang_plus_cls (p : Char → Bool) (s : List Char) : Lang (plus (.cls p)) s ↔ s ≠ [] ∧ ∀ c ∈ s, p c = true := by
  unfold plus
  have : ∀ s, Lang (.seq (.cls p) (.star (.cls p))) s ↔ ∃ u v, s = u ++ v ∧ Lang (.cls p) u ∧ Lang (.star (.cls p)) v := fun _ => Iff.rfl
  rw [this]; simp only [lang_star_cls]
  constructor
  · rintro ⟨u, v, rfl, ⟨c, rfl, hc⟩, hv⟩
    refine ⟨by simp, ?_⟩
    intro d hd
    simp at hd
    rcases hd with rfl | hd
    · exact hc
    · exact hv d hd
  · rintro ⟨h1, h2⟩
    cases s with
    | nil => exact absurd rfl h1
    | cons c s => exact ⟨[c], s, rfl, ⟨c, rfl, h2 c (by simp)⟩, fun d hd => h2 d (by simp [hd])⟩

theorem lang_spaces (s : List Char) : Lang (.star (chr ' ')) s ↔ ∃ n, s = List.replicate n ' ' := by
  unfold chr; rw [lang_star_cls]
  simp only [beq_iff_eq]
  constructor
  · intro h; exact ⟨s.length, List.eq_replicate_iff.2 ⟨rfl, h⟩⟩
  · rintro ⟨n, rfl⟩ c hc; exact (List.mem_replicate.1 hc).2

theorem lang_seqs_nil (s : List Char) : Lang (seqs []) s ↔ s = [] := Iff.rfl
theorem lang_seqs_cons (r : Re) (rs : List Re) (s : List Char) : Lang (seqs (r :: rs)) s ↔ ∃ u v, s = u ++ v ∧ Lang r u ∧ Lang (seqs rs) v := Iff.rfl
theorem lang_opt (r : Re) (s : List Char) : Lang (opt r) s ↔ s = [] ∨ Lang r s := Iff.rfl
theorem lang_alt (a b : Re) (s : List Char) : Lang (.alt a b) s ↔ Lang a s ∨ Lang b s := Iff.rfl
theorem lang_cls (p : Char → Bool) (s : List Char) : Lang (.cls p) s ↔ ∃ c, s = [c] ∧ p c = true := Iff.rfl

end Nfqlb.Regex
