import Verif.Proof.MaglevConfig
import Verif.Model.MaglevMark

/-! Set semantics of activate/deactivate. -/

set_option autoImplicit false

namespace Nfqlb.Maglev

open Spec

theorem searchActive_found (fw : Int) (a : List Int) : ∀ i fe, fw ∈ a → (searchActive fw a i fe).1 = true := by
  induction a with
  | nil => intro i fe h; simp at h
  | cons x xs ih =>
    intro i fe h
    unfold searchActive
    by_cases hx : x = fw
    · simp [hx]
    · simp only [hx, if_false]
      apply ih
      rcases List.mem_cons.1 h with h | h
      · exact absurd h.symm hx
      · exact h

theorem searchActive_some (fw : Int) (a : List Int) : ∀ i k, fw ∉ a → searchActive fw a i (some k) = (false, some k) := by
  induction a with
  | nil => intro i k _; rfl
  | cons x xs ih =>
    intro i k h
    have h1 : ¬ x = fw := fun hx => h (by simp [hx])
    unfold searchActive
    simp only [reduceCtorEq, false_and, if_false, h1]
    exact ih _ _ (fun hm => h (by simp [hm]))

theorem searchActive_none (fw : Int) (a : List Int) : ∀ i, fw ∉ a →
    searchActive fw a i none = (false, (a.findIdx? (fun v => decide (v < 0))).map (· + i)) := by
  induction a with
  | nil => intro i _; rfl
  | cons x xs ih =>
    intro i h
    have h1 : ¬ x = fw := fun hx => h (by simp [hx])
    have h2 : fw ∉ xs := fun hm => h (by simp [hm])
    unfold searchActive
    simp only [true_and, h1, if_false]
    by_cases hn : x < 0
    · simp only [hn, if_true]
      rw [searchActive_some _ _ _ _ h2]
      simp [List.findIdx?_cons, hn]
    · simp only [hn, if_false]
      rw [ih _ h2]
      rw [List.findIdx?_cons]
      simp only [hn, decide_false, Bool.false_eq_true, if_false, Option.map_map]
      congr 2
      funext k
      simp; omega

theorem activateOne_eq (a : List Int) (fw : Int) :
    activateOne a fw = if fw ∈ a then (a, false) else
      match a.findIdx? (fun v => decide (v < 0)) with
      | some i => (a.set i fw, true)
      | none => (a, false) := by
  unfold activateOne
  by_cases h : fw ∈ a
  · rw [if_pos h]
    have := searchActive_found fw a 0 none h
    split
    · rename_i heq; rw [heq] at this; simp at this
    · rfl
  · rw [if_neg h, searchActive_none _ _ _ h]
    cases a.findIdx? (fun v => decide (v < 0)) <;> simp

theorem mem_activeMarks {a : List Int} {x : Int} : x ∈ activeMarks a ↔ 0 ≤ x ∧ ∃ k : Nat, a[k]? = some x := by
  unfold activeMarks
  rw [List.mem_toFinset, List.mem_filter, List.mem_iff_getElem?]
  simp [and_comm]

theorem noDuplicates_iff (a : List Int) : NoDuplicates a ↔ (a.filter (fun v => decide (0 ≤ v))).Nodup := by
  unfold NoDuplicates
  rw [List.Nodup, List.pairwise_filter, List.pairwise_iff_getElem]
  constructor
  · intro h i j hi hj hij hpi hpj he
    have := h i j a[i] (by simpa using hpi) (List.getElem?_eq_getElem hi)
      (by rw [List.getElem?_eq_getElem hj, he])
    omega
  · intro h i j fw hfw hi hj
    have hil : i < a.length := by
      rcases Nat.lt_or_ge i a.length with h' | h'
      · exact h'
      · rw [List.getElem?_eq_none h'] at hi; simp at hi
    have hjl : j < a.length := by
      rcases Nat.lt_or_ge j a.length with h' | h'
      · exact h'
      · rw [List.getElem?_eq_none h'] at hj; simp at hj
    rw [List.getElem?_eq_getElem hil] at hi
    rw [List.getElem?_eq_getElem hjl] at hj
    injection hi with hi; injection hj with hj
    rcases Nat.lt_trichotomy i j with hlt | heq | hgt
    · exact absurd (hi.trans hj.symm) (h i j hil hjl hlt (by simp [hi, hfw]) (by simp [hj, hfw]))
    · exact heq
    · exact absurd (hj.trans hi.symm) (h j i hjl hil hgt (by simp [hj, hfw]) (by simp [hi, hfw]))

theorem card_activeMarks {a : List Int} (h : NoDuplicates a) :
    (activeMarks a).card = (a.filter (fun v => decide (0 ≤ v))).length := by
  unfold activeMarks
  exact List.toFinset_card_of_nodup ((noDuplicates_iff a).1 h)

theorem findIdx_neg_none {a : List Int} (h : a.findIdx? (fun v => decide (v < 0)) = none) :
    (a.filter (fun v => decide (0 ≤ v))).length = a.length := by
  rw [List.findIdx?_eq_none_iff] at h
  rw [List.filter_eq_self.2]
  intro v hv
  have := h v hv
  simp at this
  simpa using this

theorem findIdx_neg_some {a : List Int} {i : Nat} (h : a.findIdx? (fun v => decide (v < 0)) = some i) :
    ∃ hi : i < a.length, a[i] < 0 := by
  rw [List.findIdx?_eq_some_iff_getElem] at h
  obtain ⟨hi, h1, _⟩ := h
  exact ⟨hi, by simpa using h1⟩

theorem filter_lt_of_neg {a : List Int} {i : Nat} (hi : i < a.length) (h : a[i] < 0) :
    (a.filter (fun v => decide (0 ≤ v))).length < a.length := by
  rcases Nat.lt_or_ge (a.filter (fun v => decide (0 ≤ v))).length a.length with h' | h'
  · exact h'
  · have := List.length_filter_eq_length_iff.1 (Nat.le_antisymm (List.length_filter_le _ _) h') a[i] (List.getElem_mem hi)
    simp at this; omega

/-- Writing a slot: membership of non-negative marks. -/
theorem mem_activeMarks_set {a : List Int} {i : Nat} (hi : i < a.length) (v x : Int) :
    x ∈ activeMarks (a.set i v) ↔ 0 ≤ x ∧ (x = v ∨ ∃ k : Nat, k ≠ i ∧ a[k]? = some x) := by
  rw [mem_activeMarks]
  constructor
  · rintro ⟨h0, k, hk⟩
    refine ⟨h0, ?_⟩
    by_cases hki : i = k
    · subst hki; rw [List.getElem?_set_self hi] at hk; injection hk with hk; exact Or.inl hk.symm
    · rw [List.getElem?_set_ne hki] at hk; exact Or.inr ⟨k, fun h => hki h.symm, hk⟩
  · rintro ⟨h0, h | ⟨k, hki, hk⟩⟩
    · exact ⟨h0, i, by rw [List.getElem?_set_self hi, h]⟩
    · exact ⟨h0, k, by rw [List.getElem?_set_ne (fun h => hki h.symm)]; exact hk⟩

theorem activateOne_set {a : List Int} (h : NoDuplicates a) (fw : Int) :
    NoDuplicates (activateOne a fw).1 ∧
    activeMarks (activateOne a fw).1 = setActivate a.length (activeMarks a) fw := by
  rw [activateOne_eq]
  unfold setActivate
  by_cases hm : fw ∈ a
  · rw [if_pos hm]
    refine ⟨h, ?_⟩
    split
    · rename_i hc
      have : fw ∈ activeMarks a := mem_activeMarks.2 ⟨hc.1, List.mem_iff_getElem?.1 hm⟩
      rw [Finset.insert_eq_of_mem this]
    · rfl
  · rw [if_neg hm]
    cases hf : a.findIdx? (fun v => decide (v < 0)) with
    | none =>
      refine ⟨h, ?_⟩
      simp only
      rw [if_neg]
      rintro ⟨_, hc⟩
      rw [card_activeMarks h, findIdx_neg_none hf] at hc; omega
    | some i =>
      obtain ⟨hi, hneg⟩ := findIdx_neg_some hf
      simp only
      constructor
      · intro j k x hx hj hk
        have hother : ∀ m : Nat, (a.set i fw)[m]? = some x → m = i ∧ fw = x ∨ m ≠ i ∧ a[m]? = some x := by
          intro m hm'
          by_cases hmi : i = m
          · subst hmi; rw [List.getElem?_set_self hi] at hm'; injection hm' with hm'; exact Or.inl ⟨rfl, hm'⟩
          · rw [List.getElem?_set_ne hmi] at hm'; exact Or.inr ⟨fun h => hmi h.symm, hm'⟩
        rcases hother j hj with ⟨h1, h2⟩ | ⟨h1, h2⟩ <;> rcases hother k hk with ⟨h3, h4⟩ | ⟨h3, h4⟩
        · omega
        · subst h2; exact absurd (List.mem_of_getElem? h4) hm
        · subst h4; exact absurd (List.mem_of_getElem? h2) hm
        · exact h j k x hx h2 h4
      · ext x
        rw [mem_activeMarks_set hi]
        have hlt := filter_lt_of_neg hi hneg
        by_cases h0 : 0 ≤ fw
        · rw [if_pos ⟨h0, by rw [card_activeMarks h]; exact hlt⟩, Finset.mem_insert, mem_activeMarks]
          constructor
          · rintro ⟨hx, hc | ⟨k, _, hk⟩⟩
            · exact Or.inl hc
            · exact Or.inr ⟨hx, k, hk⟩
          · rintro (hc | ⟨hx, k, hk⟩)
            · exact ⟨by omega, Or.inl hc⟩
            · refine ⟨hx, Or.inr ⟨k, ?_, hk⟩⟩
              rintro rfl
              rw [List.getElem?_eq_getElem hi] at hk; injection hk with hk; omega
        · rw [if_neg (fun hc => h0 hc.1), mem_activeMarks]
          constructor
          · rintro ⟨hx, hc | ⟨k, _, hk⟩⟩
            · omega
            · exact ⟨hx, k, hk⟩
          · rintro ⟨hx, k, hk⟩
            refine ⟨hx, Or.inr ⟨k, ?_, hk⟩⟩
            rintro rfl
            rw [List.getElem?_eq_getElem hi] at hk; injection hk with hk; omega

theorem deactivateOne_set {a : List Int} (h : NoDuplicates a) (fw : Int) :
    NoDuplicates (deactivateOne a fw).1 ∧
    activeMarks (deactivateOne a fw).1 = setDeactivate (activeMarks a) fw := by
  unfold deactivateOne setDeactivate
  cases hf : a.findIdx? (fun v => decide (v = fw)) with
  | none =>
    refine ⟨h, ?_⟩
    simp only
    rw [Finset.erase_eq_of_notMem]
    intro hm
    obtain ⟨_, k, hk⟩ := mem_activeMarks.1 hm
    rw [List.findIdx?_eq_none_iff] at hf
    have := hf fw (List.mem_of_getElem? hk)
    simp at this
  | some i =>
    rw [List.findIdx?_eq_some_iff_getElem] at hf
    obtain ⟨hi, h1, _⟩ := hf
    have h1 : a[i] = fw := by simpa using h1
    simp only
    have hother : ∀ (m : Nat) (x : Int), 0 ≤ x → (a.set i (-1))[m]? = some x → m ≠ i ∧ a[m]? = some x := by
      intro m x hx hm'
      by_cases hmi : i = m
      · subst hmi; rw [List.getElem?_set_self hi] at hm'; injection hm' with hm'; omega
      · rw [List.getElem?_set_ne hmi] at hm'; exact ⟨fun h => hmi h.symm, hm'⟩
    constructor
    · intro j k x hx hj hk
      exact h j k x hx (hother j x hx hj).2 (hother k x hx hk).2
    · ext x
      rw [mem_activeMarks_set hi, Finset.mem_erase, mem_activeMarks]
      constructor
      · rintro ⟨hx, hc | ⟨k, hki, hk⟩⟩
        · omega
        · refine ⟨?_, hx, k, hk⟩
          rintro rfl
          exact hki (h k i x hx hk (by rw [List.getElem?_eq_getElem hi, h1]))
      · rintro ⟨hne, hx, k, hk⟩
        refine ⟨hx, Or.inr ⟨k, ?_, hk⟩⟩
        rintro rfl
        rw [List.getElem?_eq_getElem hi] at hk; injection hk with hk; exact hne (by omega)

theorem forEach_activate_set (fws : List Int) : ∀ {a : List Int} (ch : Bool), NoDuplicates a →
    NoDuplicates (forEach activateOne a fws ch).1 ∧
    activeMarks (forEach activateOne a fws ch).1 = fws.foldl (setActivate a.length) (activeMarks a) := by
  induction fws with
  | nil => intro a ch h; exact ⟨h, rfl⟩
  | cons x xs ih =>
    intro a ch h
    obtain ⟨h1, h2⟩ := activateOne_set h x
    obtain ⟨h3, h4⟩ := ih (ch || (activateOne a x).2) h1
    unfold forEach
    refine ⟨h3, ?_⟩
    simp only
    rw [h4, h2, activateOne_len, List.foldl_cons]

theorem forEach_deactivate_set (fws : List Int) : ∀ {a : List Int} (ch : Bool), NoDuplicates a →
    NoDuplicates (forEach deactivateOne a fws ch).1 ∧
    activeMarks (forEach deactivateOne a fws ch).1 = fws.foldl setDeactivate (activeMarks a) := by
  induction fws with
  | nil => intro a ch h; exact ⟨h, rfl⟩
  | cons x xs ih =>
    intro a ch h
    obtain ⟨h1, h2⟩ := deactivateOne_set h x
    obtain ⟨h3, h4⟩ := ih (ch || (deactivateOne a x).2) h1
    unfold forEach
    refine ⟨h3, ?_⟩
    simp only
    rw [h4, h2, List.foldl_cons]

theorem populate_active {d d' : Mag} (h : populate d = .ok d') : d'.active = d.active ∧ d'.N = d.N := by
  unfold populate at h
  split at h <;> first | (injection h with h; subst h; exact ⟨rfl, rfl⟩) | simp at h


theorem runCmd_mark_active {d d' : Mag} (c : MarkCmd) (h : runCmd d (ofMark c) = .ok d') :
    d'.N = d.N ∧ d'.active = match c with
      | .activate fws => (forEach activateOne d.active fws false).1
      | .deactivate fws => (forEach deactivateOne d.active fws false).1 := by
  cases c with
  | activate fws =>
    simp only [ofMark, runCmd] at h
    split at h
    · obtain ⟨h1, h2⟩ := populate_active h; exact ⟨h2, h1⟩
    · injection h with h; subst h; exact ⟨rfl, rfl⟩
  | deactivate fws =>
    simp only [ofMark, runCmd] at h
    split at h
    · obtain ⟨h1, h2⟩ := populate_active h; exact ⟨h2, h1⟩
    · injection h with h; subst h; exact ⟨rfl, rfl⟩

theorem runCmd_mark_ne_die {d : Mag} (hd : MagInv d) (c : MarkCmd) : runCmd d (ofMark c) ≠ .die := by
  have key : ∀ a : List Int, a.length = d.N → populate { d with active := a } ≠ .die := by
    intro a ha h
    rcases populate_inv (d := { d with active := a }) hd.mpos ha with h' | ⟨l, h', _⟩
    · rw [h'] at h; simp at h
    · rw [h'] at h; simp at h
  cases c with
  | activate fws =>
    simp only [ofMark, runCmd]
    split
    · exact key _ (by rw [forEach_len _ activateOne_len]; exact hd.alen)
    · simp
  | deactivate fws =>
    simp only [ofMark, runCmd]
    split
    · exact key _ (by rw [forEach_len _ deactivateOne_len]; exact hd.alen)
    · simp

theorem runCmds_set (cs : List MarkCmd) : ∀ {d d' : Mag}, MagInv d → NoDuplicates d.active →
    runCmds d (cs.map ofMark) = .ok d' →
    NoDuplicates d'.active ∧ activeMarks d'.active = setRun d.N (activeMarks d.active) cs := by
  induction cs with
  | nil => intro d d' hd hn h; injection h with h; subst h; exact ⟨hn, rfl⟩
  | cons c cs ih =>
    intro d d' hd hn h
    rw [List.map_cons] at h
    unfold runCmds at h
    rcases runCmd_inv hd (ofMark c) with hc | hc | ⟨d1, hc, hi, h1, h2, h3⟩
    · rw [hc] at h; simp at h
    · exact absurd hc (runCmd_mark_ne_die hd c)
    · rw [hc] at h
      obtain ⟨hN, hact⟩ := runCmd_mark_active c hc
      cases c with
      | activate fws =>
        simp only at hact
        obtain ⟨g1, g2⟩ := forEach_activate_set fws false hn
        rw [← hact] at g1 g2
        obtain ⟨k1, k2⟩ := ih hi g1 h
        refine ⟨k1, ?_⟩
        rw [k2, hN, g2, hd.alen]; rfl
      | deactivate fws =>
        simp only at hact
        obtain ⟨g1, g2⟩ := forEach_deactivate_set fws false hn
        rw [← hact] at g1 g2
        obtain ⟨k1, k2⟩ := ih hi g1 h
        refine ⟨k1, ?_⟩
        rw [k2, hN, g2]; rfl

/-- What packets get from a consistent table. -/
theorem MagInv.target_ok {d : Mag} (hd : MagInv d) (hash : Nat) :
    ∃ fw, target d hash = .ok fw ∧
      ((∃ i, ActiveAt d.active i) → fw ∈ activeMarks d.active) ∧
      ((¬ ∃ i, ActiveAt d.active i) → fw = -1) := by
  obtain ⟨⟨h1, h2⟩, _⟩ := hd.good
  have hM := hd.mpos
  have hlt := Nat.mod_lt hash hM
  unfold target
  rw [if_neg (by omega)]
  by_cases ha : ∃ i, ActiveAt d.active i
  · obtain ⟨_, hf⟩ := h1 ha
    obtain ⟨i, hi, fw, hfw, h0⟩ := hf _ hlt
    rw [hi]
    have hpos : (i : Int) ≥ 0 := by omega
    simp only [hpos, if_true, Int.toNat_natCast, hfw]
    exact ⟨fw, rfl, fun _ => mem_activeMarks.2 ⟨h0, i, hfw⟩, fun hn => absurd ha hn⟩
  · obtain ⟨_, hf⟩ := h2 ha
    rw [hf _ hlt]
    exact ⟨-1, rfl, fun h => absurd h ha, fun _ => rfl⟩

end Nfqlb.Maglev
