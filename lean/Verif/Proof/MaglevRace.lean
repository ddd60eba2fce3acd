import Verif.Model.MaglevRace
import Verif.Spec.MaglevRace
import Verif.Proof.MaglevSet

set_option autoImplicit false

namespace Nfqlb.Maglev

open Spec

/-- Effect of stores on a lookup array. -/
def appL (l : List Int) (ss : List Store) : List Int := (applyStores ⟨0, 0, l, [], []⟩ ss).lookup

theorem applyStores_append (d : Mag) (a b : List Store) :
    applyStores d (a ++ b) = applyStores (applyStores d a) b := by
  unfold applyStores; rw [List.foldl_append]

/-- All stores go to the lookup array. -/
def OnlyLookup (ss : List Store) : Prop := ∀ s ∈ ss, ∃ (c : Nat) (v : Int), s = (.lookup c, v)

theorem applyStores_lookup (ss : List Store) : ∀ (d : Mag), OnlyLookup ss →
    applyStores d ss = { d with lookup := appL d.lookup ss } := by
  induction ss with
  | nil => intro d _; rfl
  | cons s ss ih =>
    intro d h
    obtain ⟨c, v, rfl⟩ := h s (by simp)
    have h' : OnlyLookup ss := fun s hs => h s (by simp [hs])
    have e1 : applyStores d ((.lookup c, v) :: ss) = applyStores { d with lookup := d.lookup.set c v } ss := rfl
    have e2 : appL d.lookup ((.lookup c, v) :: ss) = appL (d.lookup.set c v) ss := rfl
    rw [e1, e2, ih _ h']

theorem appL_append (l : List Int) {a b : List Store} (ha : OnlyLookup a) : appL l (a ++ b) = appL (appL l a) b := by
  unfold appL
  rw [applyStores_append, applyStores_lookup a _ ha]

theorem appL_cons (l : List Int) (c : Nat) (v : Int) (ss : List Store) :
    appL l ((.lookup c, v) :: ss) = appL (l.set c v) ss := rfl

/-- A good store of populate. -/
def GoodStores (active : List Int) (ss : List Store) : Prop :=
  ∀ s ∈ ss, ∃ (c : Nat) (v : Int), s = (.lookup c, v) ∧ (v = -1 ∨ ∃ k : Nat, v = (k : Int) ∧ ActiveAt active k)

theorem GoodStores.only {active : List Int} {ss : List Store} (h : GoodStores active ss) : OnlyLookup ss := by
  intro s hs; obtain ⟨c, v, h1, _⟩ := h s hs; exact ⟨c, v, h1⟩

theorem placeLog_of_place {perm : List (List Nat)} {i : Nat} {s s' : PopSt} (h : place perm i s = .ok s') :
    ∃ c : Nat, placeLog perm i s = .ok (s', (.lookup c, (i : Int))) ∧ s'.lookup = s.lookup.set c (i : Int) := by
  unfold place at h
  unfold placeLog
  split at h
  · rename_i row nx hr hn
    rw [hr, hn]
    simp only
    split at h
    · rename_i nx' c hf
      rw [hf]
      injection h with h; subst h
      exact ⟨c, rfl, rfl⟩
    all_goals simp at h
  · simp at h

theorem passLog_of_pass {M : Nat} {perm : List (List Nat)} {active : List Int} (is : List Nat) :
    ∀ {s s' : PopSt} {f : Bool}, pass M perm active is s = .ok (s', f) →
      ∃ log, passLog M perm active is s = .ok (s', f, log) ∧ GoodStores active log ∧ s'.lookup = appL s.lookup log := by
  induction is with
  | nil =>
    intro s s' f h
    simp only [pass] at h
    injection h with h
    injection h with h1 h2
    subst h1 h2
    exact ⟨[], rfl, by intro s hs; simp at hs, rfl⟩
  | cons i is ih =>
    intro s s' f h
    unfold pass at h
    unfold passLog
    cases ha : active[i]? with
    | none => rw [ha] at h; simp at h
    | some a =>
      rw [ha] at h
      simp only at h ⊢
      by_cases hneg : a < 0
      · rw [if_pos hneg] at h ⊢; exact ih h
      · rw [if_neg hneg] at h ⊢
        cases hp : place perm i s with
        | ok s1 =>
          rw [hp] at h
          obtain ⟨c, hc1, hc2⟩ := placeLog_of_place hp
          rw [hc1]
          simp only at h ⊢
          have hgood : ∃ (c' : Nat) (v : Int), ((Loc.lookup c, (i : Int)) : Store) = (.lookup c', v) ∧
              (v = -1 ∨ ∃ k : Nat, v = (k : Int) ∧ ActiveAt active k) :=
            ⟨c, i, rfl, Or.inr ⟨i, rfl, a, ha, by omega⟩⟩
          by_cases hn : s1.n = M
          · rw [if_pos hn] at h ⊢
            injection h with h
            injection h with h1 h2
            subst h1 h2
            refine ⟨_, rfl, ?_, ?_⟩
            · intro st hst
              rw [List.mem_singleton] at hst; subst hst; exact hgood
            · rw [hc2]; rfl
          · rw [if_neg hn] at h ⊢
            obtain ⟨log, l1, l2, l3⟩ := ih h
            rw [l1]
            refine ⟨_, rfl, ?_, ?_⟩
            · intro st hst
              rcases List.mem_cons.1 hst with hst | hst
              · subst hst; exact hgood
              · exact l2 st hst
            · rw [l3, hc2]; rfl
        | die => rw [hp] at h; simp at h
        | ub => rw [hp] at h; simp at h
        | hang => rw [hp] at h; simp at h

theorem passesLog_of_passes {M N : Nat} {perm : List (List Nat)} {active : List Int} (fuel : Nat) :
    ∀ {s : PopSt} {l : List Int}, passes M N perm active fuel s = .ok l →
      ∃ log, passesLog M N perm active fuel s = .ok log ∧ GoodStores active log ∧ l = appL s.lookup log := by
  induction fuel with
  | zero => intro s l h; simp [passes] at h
  | succ fuel ih =>
    intro s l h
    unfold passes at h
    unfold passesLog
    cases hp : pass M perm active (List.range N) s with
    | ok r =>
      obtain ⟨s1, f⟩ := r
      rw [hp] at h
      obtain ⟨log, l1, l2, l3⟩ := passLog_of_pass _ hp
      rw [l1]
      cases f with
      | true =>
        simp only at h ⊢
        injection h with h
        exact ⟨log, rfl, l2, by rw [← h, l3]⟩
      | false =>
        simp only at h ⊢
        obtain ⟨log', k1, k2, k3⟩ := ih h
        rw [k1]
        refine ⟨log ++ log', rfl, ?_, ?_⟩
        · intro st hst
          rcases List.mem_append.1 hst with hst | hst
          · exact l2 st hst
          · exact k2 st hst
        · rw [k3, l3, appL_append _ l2.only]
    | die => rw [hp] at h; simp at h
    | ub => rw [hp] at h; simp at h
    | hang => rw [hp] at h; simp at h

theorem appL_clear (l : List Int) : appL l ((List.range l.length).map (fun c => ((.lookup c, -1) : Store)))
    = List.replicate l.length (-1) := by
  have key : ∀ n, n ≤ l.length → (appL l ((List.range n).map (fun c => ((.lookup c, -1) : Store)))) =
      List.replicate n (-1) ++ l.drop n := by
    intro n
    induction n with
    | zero => intro _; simp [appL, applyStores]
    | succ n ih =>
      intro hn
      rw [List.range_succ, List.map_append, appL_append _ (by intro s hs; simp at hs; obtain ⟨c, _, rfl⟩ := hs; exact ⟨c, -1, rfl⟩),
        ih (by omega)]
      simp only [List.map_cons, List.map_nil, appL_cons]
      have : appL ((List.replicate n (-1) ++ l.drop n).set n (-1)) [] = (List.replicate n (-1) ++ l.drop n).set n (-1) := rfl
      rw [this, List.set_append_right _ _ (by simp)]
      simp only [List.length_replicate, Nat.sub_self]
      rw [List.drop_eq_getElem_cons (by omega), List.set_cons_zero, List.replicate_succ']
      simp
  have := key l.length (Nat.le_refl _)
  simpa using this

theorem populateStores_of_populate {M N : Nat} {perm : List (List Nat)} {active : List Int} {l l0 : List Int}
    (h : populateLookup M N perm active = .ok l) (hl0 : l0.length = M) :
    ∃ ss, populateStores M N perm active = .ok ss ∧ GoodStores active ss ∧ l = appL l0 ss := by
  have hclear : GoodStores active ((List.range M).map (fun c => ((.lookup c, -1) : Store))) := by
    intro s hs
    simp only [List.mem_map, List.mem_range] at hs
    obtain ⟨c, _, rfl⟩ := hs
    exact ⟨c, -1, rfl, Or.inl rfl⟩
  have hc := appL_clear l0
  rw [hl0] at hc
  unfold populateLookup at h
  unfold populateStores
  simp only at h ⊢
  by_cases hz : nActive active = 0
  · rw [if_pos hz] at h ⊢
    injection h with h
    exact ⟨_, rfl, hclear, by rw [hc, h]⟩
  · rw [if_neg hz] at h ⊢
    obtain ⟨log, l1, l2, l3⟩ := passesLog_of_passes _ h
    rw [l1]
    refine ⟨_, rfl, ?_, ?_⟩
    · intro st hst
      rcases List.mem_append.1 hst with hst | hst
      · exact hclear st hst
      · exact l2 st hst
    · rw [appL_append _ hclear.only, hc, l3]

/-! ### Stores of the commands -/

/-- Effect of stores on an active array. -/
def appA (a : List Int) (ss : List Store) : List Int := (applyStores ⟨0, 0, [], [], a⟩ ss).active

/-- All stores go to the active array. -/
def OnlyActive (ss : List Store) : Prop := ∀ s ∈ ss, ∃ (i : Nat) (v : Int), s = (.active i, v)

theorem applyStores_active (ss : List Store) : ∀ (d : Mag), OnlyActive ss →
    applyStores d ss = { d with active := appA d.active ss } := by
  induction ss with
  | nil => intro d _; rfl
  | cons s ss ih =>
    intro d h
    obtain ⟨c, v, rfl⟩ := h s (by simp)
    have h' : OnlyActive ss := fun s hs => h s (by simp [hs])
    have e1 : applyStores d ((.active c, v) :: ss) = applyStores { d with active := d.active.set c v } ss := rfl
    have e2 : appA d.active ((.active c, v) :: ss) = appA (d.active.set c v) ss := rfl
    rw [e1, e2, ih _ h']

theorem activateStores_spec (fws : List Int) : ∀ (a : List Int) (ch : Bool),
    OnlyActive (activateStores a fws) ∧
    appA a (activateStores a fws) = (forEach activateOne a fws ch).1 ∧
    ((forEach activateOne a fws ch).2 = true ↔ (ch = true ∨ activateStores a fws ≠ [])) ∧
    (∀ (i : Nat) (v : Int), a[i]? = some v → 0 ≤ v → (forEach activateOne a fws ch).1[i]? = some v) ∧
    (∀ (i : Nat) (v : Int), (Loc.active i, v) ∈ activateStores a fws → 0 ≤ v → (forEach activateOne a fws ch).1[i]? = some v) := by
  induction fws with
  | nil =>
    intro a ch
    refine ⟨by intro s hs; simp [activateStores] at hs, rfl, by simp [forEach, activateStores], fun i v h _ => h, by intro i v h; simp [activateStores] at h⟩
  | cons fw fws ih =>
    intro a ch
    have hs : activateStores a (fw :: fws) = match searchActive fw a 0 none with
      | (false, some i) => (.active i, fw) :: activateStores (a.set i fw) fws
      | _ => activateStores a fws := rfl
    have hfe : forEach activateOne a (fw :: fws) ch =
            forEach activateOne (activateOne a fw).1 fws (ch || (activateOne a fw).2) := rfl
    by_cases hm : fw ∈ a
    · have h1 : activateStores a (fw :: fws) = activateStores a fws := by
        rw [hs]
        have := searchActive_found fw a 0 none hm
        split
        · rename_i heq; rw [heq] at this; simp at this
        · rfl
      have h2 : forEach activateOne a (fw :: fws) ch = forEach activateOne a fws ch := by
        rw [hfe, activateOne_eq, if_pos hm]
        simp
      rw [h1, h2]; exact ih a ch
    · rw [searchActive_none _ _ _ hm] at hs
      cases hf : a.findIdx? (fun v => decide (v < 0)) with
      | none =>
        rw [hf] at hs
        have h1 : activateStores a (fw :: fws) = activateStores a fws := by rw [hs]; rfl
        have h2 : forEach activateOne a (fw :: fws) ch = forEach activateOne a fws ch := by
          rw [hfe, activateOne_eq, if_neg hm, hf]
          simp
        rw [h1, h2]; exact ih a ch
      | some i =>
        obtain ⟨hi, hneg⟩ := findIdx_neg_some hf
        rw [hf] at hs
        have h1 : activateStores a (fw :: fws) = (.active i, fw) :: activateStores (a.set i fw) fws := by rw [hs]; rfl
        have h2 : forEach activateOne a (fw :: fws) ch = forEach activateOne (a.set i fw) fws true := by
          rw [hfe, activateOne_eq, if_neg hm, hf]
          simp
        rw [h1, h2]
        obtain ⟨i1, i2, i3, i4, i5⟩ := ih (a.set i fw) true
        refine ⟨?_, ?_, ?_, ?_, ?_⟩
        · intro s hs'
          rcases List.mem_cons.1 hs' with rfl | hs'
          · exact ⟨i, fw, rfl⟩
          · exact i1 s hs'
        · rw [← i2]; rfl
        · simp [i3]
        · intro k v hk h0
          refine i4 k v ?_ h0
          have : i ≠ k := by
            rintro rfl
            rw [List.getElem?_eq_getElem hi] at hk; injection hk; omega
          rw [List.getElem?_set_ne this]; exact hk
        · intro k v hk h0
          rcases List.mem_cons.1 hk with hk | hk
          · injection hk with hk1 hk2
            injection hk1 with hk1
            subst hk1 hk2
            exact i4 k v (by rw [List.getElem?_set_self hi]) h0
          · exact i5 k v hk h0

theorem deactivateStores_spec (fws : List Int) : ∀ (a : List Int) (ch : Bool),
    OnlyActive (deactivateStores a fws) ∧
    appA a (deactivateStores a fws) = (forEach deactivateOne a fws ch).1 ∧
    ((forEach deactivateOne a fws ch).2 = true ↔ (ch = true ∨ deactivateStores a fws ≠ [])) ∧
    (∀ (i : Nat) (v : Int), (Loc.active i, v) ∈ deactivateStores a fws → v = -1) := by
  induction fws with
  | nil =>
    intro a ch
    refine ⟨by intro s hs; simp [deactivateStores] at hs, rfl, by simp [forEach, deactivateStores], by intro i v h; simp [deactivateStores] at h⟩
  | cons fw fws ih =>
    intro a ch
    have hs : deactivateStores a (fw :: fws) = match a.findIdx? (fun x => decide (x = fw)) with
      | some i => (.active i, -1) :: deactivateStores (a.set i (-1)) fws
      | none => deactivateStores a fws := rfl
    have hfe : forEach deactivateOne a (fw :: fws) ch =
            forEach deactivateOne (deactivateOne a fw).1 fws (ch || (deactivateOne a fw).2) := rfl
    cases hf : a.findIdx? (fun x => decide (x = fw)) with
    | none =>
      have hd : deactivateOne a fw = (a, false) := by unfold deactivateOne; rw [hf]
      rw [hd] at hfe
      rw [hf] at hs
      simp only [Bool.or_false] at hfe
      rw [hs, hfe]; exact ih a ch
    | some i =>
      have hd : deactivateOne a fw = (a.set i (-1), true) := by unfold deactivateOne; rw [hf]
      rw [hd] at hfe
      rw [hf] at hs
      simp only [Bool.or_true] at hfe
      rw [hs, hfe]
      obtain ⟨i1, i2, i3, i4⟩ := ih (a.set i (-1)) true
      refine ⟨?_, ?_, ?_, ?_⟩
      · intro s hs'
        rcases List.mem_cons.1 hs' with rfl | hs'
        · exact ⟨i, -1, rfl⟩
        · exact i1 s hs'
      · rw [← i2]; rfl
      · simp [i3]
      · intro k v hk
        rcases List.mem_cons.1 hk with hk | hk
        · injection hk
        · exact i4 k v hk

/-- What may be stored: in `lookup` -1 or an index of the active array; in `active` a negative number or one of
`marks`. -/
def SafeStores (N : Nat) (marks : Int → Prop) (ss : List Store) : Prop :=
  (∀ (c : Nat) (v : Int), (Loc.lookup c, v) ∈ ss → v = -1 ∨ ∃ k : Nat, v = (k : Int) ∧ k < N) ∧
  (∀ (i : Nat) (v : Int), (Loc.active i, v) ∈ ss → v < 0 ∨ marks v)

theorem MagInv.lookupLen {d : Mag} (hd : MagInv d) : d.lookup.length = d.M := by
  obtain ⟨⟨h1, h2⟩, _⟩ := hd.good
  by_cases ha : ∃ i, ActiveAt d.active i
  · exact (h1 ha).1
  · exact (h2 ha).1

theorem thenPopulate_spec {d d' : Mag} (hd : MagInv d) {ss : List Store} (honly : OnlyActive ss) (hne : ss ≠ [])
    (h : populate { d with active := appA d.active ss } = .ok d') :
    ∃ log, thenPopulate d ss = .ok (ss ++ log) ∧ applyStores d (ss ++ log) = d' ∧
      d'.active = appA d.active ss ∧ GoodStores d'.active log := by
  unfold populate at h
  simp only at h
  split at h
  · rename_i l hl
    injection h with h
    subst h
    obtain ⟨log, h1, h2, h3⟩ := populateStores_of_populate hl hd.lookupLen
    refine ⟨log, ?_, ?_, rfl, h2⟩
    · unfold thenPopulate
      split
      · exact absurd rfl hne
      · rw [applyStores_active _ _ honly, h1]
    · rw [applyStores_append, applyStores_active _ _ honly, applyStores_lookup _ _ h2.only]
      simp only
      rw [← h3]
  all_goals simp at h

theorem thenPopulate_safe {d d' : Mag} (hd : MagInv d) {ss : List Store} (honly : OnlyActive ss) (hne : ss ≠ [])
    (hinv : MagInv d') (hN : d'.N = d.N)
    (h : populate { d with active := appA d.active ss } = .ok d')
    (hsafe : ∀ (i : Nat) (v : Int), (Loc.active i, v) ∈ ss → v < 0 ∨ (appA d.active ss)[i]? = some v) :
    ∃ ss', thenPopulate d ss = .ok ss' ∧ applyStores d ss' = d' ∧
      SafeStores d.N (fun v => v ∈ activeMarks d'.active) ss' := by
  obtain ⟨log, h1, h2, h3, h4⟩ := thenPopulate_spec hd honly hne h
  refine ⟨_, h1, h2, ?_, ?_⟩
  · intro c v hv
    rcases List.mem_append.1 hv with hv | hv
    · obtain ⟨i, w, hw⟩ := honly _ hv; simp at hw
    · obtain ⟨c', v', he, hg⟩ := h4 _ hv
      injection he with he1 he2
      subst he2
      rcases hg with hg | ⟨k, hk, hka⟩
      · exact Or.inl hg
      · refine Or.inr ⟨k, hk, ?_⟩
        have := activeAt_lt hka
        rw [hinv.alen, hN] at this; exact this
  · intro i v hv
    rcases List.mem_append.1 hv with hv | hv
    · rcases hsafe i v hv with h' | h'
      · exact Or.inl h'
      · by_cases h0 : v < 0
        · exact Or.inl h0
        · right
          exact mem_activeMarks.2 ⟨by omega, i, by rw [h3]; exact h'⟩
    · obtain ⟨c', v', he, hg⟩ := h4 _ hv
      simp at he

theorem safe_nil (N : Nat) (marks : Int → Prop) : SafeStores N marks [] :=
  ⟨by intro c v h; simp at h, by intro c v h; simp at h⟩

theorem cmdStores_spec {d : Mag} (hd : MagInv d) (c : Cmd) :
    (runCmd d c = .die → cmdStores d c = .ok []) ∧
    (∀ d', runCmd d c = .ok d' → ∃ ss, cmdStores d c = .ok ss ∧ applyStores d ss = d' ∧
      SafeStores d.N (fun v => v ∈ activeMarks d'.active) ss) := by
  have hinvOf : ∀ d', runCmd d c = .ok d' → MagInv d' ∧ d'.N = d.N := by
    intro d' h
    rcases runCmd_inv hd c with h' | h' | ⟨e, h', hi, _, hN, _⟩
    · rw [h'] at h; simp at h
    · rw [h'] at h; simp at h
    · rw [h'] at h; injection h with h; subst h; exact ⟨hi, hN⟩
  cases c with
  | activate fws =>
    constructor
    · intro h; exact absurd h (runCmd_mark_ne_die hd (.activate fws))
    · intro d' h
      obtain ⟨hi, hN⟩ := hinvOf d' h
      obtain ⟨s1, s2, s3, _, s5⟩ := activateStores_spec fws d.active false
      simp only [runCmd] at h
      simp only [cmdStores]
      split at h
      · rename_i hch
        have hne : activateStores d.active fws ≠ [] := by
          rcases s3.1 hch with h' | h'
          · simp at h'
          · exact h'
        rw [← s2] at h
        refine thenPopulate_safe hd s1 hne hi hN h ?_
        intro i v hv
        by_cases h0 : v < 0
        · exact Or.inl h0
        · right; rw [s2]; exact s5 i v hv (by omega)
      · rename_i hch
        have hnil : activateStores d.active fws = [] := by
          by_contra hne
          exact hch (s3.2 (Or.inr hne))
        injection h with h
        rw [hnil] at s2 ⊢
        refine ⟨[], rfl, ?_, safe_nil _ _⟩
        have : (forEach activateOne d.active fws false).1 = d.active := s2.symm
        rw [this] at h
        exact h
  | deactivate fws =>
    constructor
    · intro h; exact absurd h (runCmd_mark_ne_die hd (.deactivate fws))
    · intro d' h
      obtain ⟨hi, hN⟩ := hinvOf d' h
      obtain ⟨s1, s2, s3, s5⟩ := deactivateStores_spec fws d.active false
      simp only [runCmd] at h
      simp only [cmdStores]
      split at h
      · rename_i hch
        have hne : deactivateStores d.active fws ≠ [] := by
          rcases s3.1 hch with h' | h'
          · simp at h'
          · exact h'
        rw [← s2] at h
        refine thenPopulate_safe hd s1 hne hi hN h ?_
        intro i v hv
        have := s5 i v hv
        left; omega
      · rename_i hch
        have hnil : deactivateStores d.active fws = [] := by
          by_contra hne
          exact hch (s3.2 (Or.inr hne))
        injection h with h
        rw [hnil] at s2 ⊢
        refine ⟨[], rfl, ?_, safe_nil _ _⟩
        have : (forEach deactivateOne d.active fws false).1 = d.active := s2.symm
        rw [this] at h
        exact h
  | activateAt idx fw =>
    cases fw with
    | none =>
      constructor
      · intro h; simp [runCmd] at h
      · intro d' h
        simp only [runCmd] at h
        injection h with h
        exact ⟨[], rfl, h, safe_nil _ _⟩
    | some fw =>
      simp only [cmdStores]
      by_cases hidx : indexTooLarge (cint idx) d.N
      · simp only [runCmd, hidx, if_true]
        exact ⟨fun _ => trivial, fun d' h => by simp at h⟩
      · simp only [runCmd, hidx, if_false, Bool.false_eq_true] at hinvOf ⊢
        cases ha : d.active[(cint idx).toNat]? with
        | none => simp
        | some a =>
          rw [ha] at hinvOf
          simp only at hinvOf ⊢
          by_cases hne : a ≠ fw
          · rw [if_pos hne] at hinvOf ⊢
            rw [if_pos hne]
            have hlen : (cint idx).toNat < d.active.length := by
              rcases Nat.lt_or_ge (cint idx).toNat d.active.length with h' | h'
              · exact h'
              · rw [List.getElem?_eq_none h'] at ha; simp at ha
            have honly : OnlyActive [(Loc.active (cint idx).toNat, fw)] := by
              intro s hs; rw [List.mem_singleton] at hs; exact ⟨_, _, hs⟩
            have happ : appA d.active [(Loc.active (cint idx).toNat, fw)] = d.active.set (cint idx).toNat fw := rfl
            constructor
            · intro hdie
              rcases populate_inv (d := { d with active := d.active.set (cint idx).toNat fw }) hd.mpos (by simpa using hd.alen) with h' | ⟨l, h', _⟩
              · rw [h'] at hdie; simp at hdie
              · rw [h'] at hdie; simp at hdie
            · intro d' h
              obtain ⟨hi, hN⟩ := hinvOf d' h
              rw [← happ] at h
              refine thenPopulate_safe hd honly (by simp) hi hN h ?_
              intro i v hv
              rw [List.mem_singleton] at hv
              injection hv with hv1 hv2
              injection hv1 with hv1
              subst hv1 hv2
              right
              rw [happ, List.getElem?_set_self hlen]
          · rw [if_neg hne, if_neg hne]
            refine ⟨fun h => by simp at h, fun d' h => ?_⟩
            injection h with h
            exact ⟨[], rfl, h, safe_nil _ _⟩
  | deactivateAt idx =>
      simp only [cmdStores]
      by_cases hidx : indexTooLarge (cint idx) d.N
      · simp only [runCmd, hidx, if_true]
        exact ⟨fun _ => trivial, fun d' h => by simp at h⟩
      · simp only [runCmd, hidx, if_false, Bool.false_eq_true] at hinvOf ⊢
        cases ha : d.active[(cint idx).toNat]? with
        | none => simp
        | some a =>
          rw [ha] at hinvOf
          simp only at hinvOf ⊢
          by_cases hne : a ≥ 0
          · rw [if_pos hne] at hinvOf ⊢
            rw [if_pos hne]
            have honly : OnlyActive [(Loc.active (cint idx).toNat, -1)] := by
              intro s hs; rw [List.mem_singleton] at hs; exact ⟨_, _, hs⟩
            have happ : appA d.active [(Loc.active (cint idx).toNat, -1)] = d.active.set (cint idx).toNat (-1) := rfl
            constructor
            · intro hdie
              rcases populate_inv (d := { d with active := d.active.set (cint idx).toNat (-1) }) hd.mpos (by simpa using hd.alen) with h' | ⟨l, h', _⟩
              · rw [h'] at hdie; simp at hdie
              · rw [h'] at hdie; simp at hdie
            · intro d' h
              obtain ⟨hi, hN⟩ := hinvOf d' h
              rw [← happ] at h
              refine thenPopulate_safe hd honly (by simp) hi hN h ?_
              intro i v hv
              rw [List.mem_singleton] at hv
              injection hv with hv1 hv2
              left; omega
          · rw [if_neg hne, if_neg hne]
            refine ⟨fun h => by simp at h, fun d' h => ?_⟩
            injection h with h
            exact ⟨[], rfl, h, safe_nil _ _⟩

/-! ### What a reader can see -/

theorem applyStores_len (ss : List Store) : ∀ (d : Mag), (applyStores d ss).lookup.length = d.lookup.length ∧
    (applyStores d ss).active.length = d.active.length := by
  induction ss with
  | nil => intro d; exact ⟨rfl, rfl⟩
  | cons s ss ih =>
    intro d
    obtain ⟨h1, h2⟩ := ih (applyStore d s)
    have : applyStores d (s :: ss) = applyStores (applyStore d s) ss := rfl
    rw [this, h1, h2]
    obtain ⟨loc, v⟩ := s
    cases loc <;> simp [applyStore]

theorem read_lookup (ss : List Store) : ∀ (d : Mag) (c : Nat) (v : Int),
    (applyStores d ss).lookup[c]? = some v → d.lookup[c]? = some v ∨ (Loc.lookup c, v) ∈ ss := by
  induction ss with
  | nil => intro d c v h; exact Or.inl h
  | cons s ss ih =>
    intro d c v h
    rcases ih (applyStore d s) c v h with h' | h'
    · obtain ⟨loc, w⟩ := s
      cases loc with
      | lookup c' =>
        simp only [applyStore] at h'
        rw [List.getElem?_set] at h'
        split at h'
        · rename_i he
          subst he
          split at h'
          · injection h' with h'; subst h'; right; simp
          · simp at h'
        · exact Or.inl h'
      | active i => exact Or.inl h'
    · right; simp [h']

theorem read_active (ss : List Store) : ∀ (d : Mag) (c : Nat) (v : Int),
    (applyStores d ss).active[c]? = some v → d.active[c]? = some v ∨ (Loc.active c, v) ∈ ss := by
  induction ss with
  | nil => intro d c v h; exact Or.inl h
  | cons s ss ih =>
    intro d c v h
    rcases ih (applyStore d s) c v h with h' | h'
    · obtain ⟨loc, w⟩ := s
      cases loc with
      | active c' =>
        simp only [applyStore] at h'
        rw [List.getElem?_set] at h'
        split at h'
        · rename_i he
          subst he
          split at h'
          · injection h' with h'; subst h'; right; simp
          · simp at h'
        · exact Or.inl h'
      | lookup i => exact Or.inl h'
    · right; simp [h']

theorem MagInv.lookup_valid {d : Mag} (hd : MagInv d) {c : Nat} {v : Int} (h : d.lookup[c]? = some v) :
    v = -1 ∨ ∃ k : Nat, v = (k : Int) ∧ k < d.N := by
  have hc : c < d.M := by
    rw [← hd.lookupLen]
    rcases Nat.lt_or_ge c d.lookup.length with h' | h'
    · exact h'
    · rw [List.getElem?_eq_none h'] at h; simp at h
  obtain ⟨⟨h1, h2⟩, _⟩ := hd.good
  by_cases ha : ∃ i, ActiveAt d.active i
  · obtain ⟨i, hi, hact⟩ := (h1 ha).2 c hc
    rw [h] at hi; injection hi with hi
    have := activeAt_lt hact
    rw [hd.alen] at this
    exact Or.inr ⟨i, hi, this⟩
  · have := (h2 ha).2 c hc
    rw [h] at this; injection this with this
    exact Or.inl this

theorem raceTarget_safe {d : Mag} (hd : MagInv d) {marks : Int → Prop} {ss : List Store}
    (hs : SafeStores d.N marks ss) (t1 t2 hash : Nat) :
    ∃ fw, raceTarget d ss t1 t2 hash = .ok fw ∧ (fw < 0 ∨ fw ∈ activeMarks d.active ∨ marks fw) := by
  have hM := hd.mpos
  have hlt := Nat.mod_lt hash hM
  unfold raceTarget
  rw [if_neg (by omega)]
  have hl : hash % d.M < (applyStores d (ss.take t1)).lookup.length := by
    rw [(applyStores_len _ d).1, hd.lookupLen]; exact hlt
  rw [List.getElem?_eq_getElem hl]
  generalize hv : (applyStores d (ss.take t1)).lookup[hash % d.M] = v
  have hv' : (applyStores d (ss.take t1)).lookup[hash % d.M]? = some v := by
    rw [List.getElem?_eq_getElem hl, hv]
  have hval : v = -1 ∨ ∃ k : Nat, v = (k : Int) ∧ k < d.N := by
    rcases read_lookup _ _ _ _ hv' with h' | h'
    · exact hd.lookup_valid h'
    · exact hs.1 _ _ (List.mem_of_mem_take h')
  simp only
  rcases hval with h1 | ⟨k, hk, hkN⟩
  · subst h1
    exact ⟨-1, rfl, Or.inl (by omega)⟩
  · subst hk
    rw [if_pos (by omega)]
    simp only [Int.toNat_natCast]
    have hal : k < (applyStores d (ss.take t2)).active.length := by
      rw [(applyStores_len _ d).2, hd.alen]; exact hkN
    rw [List.getElem?_eq_getElem hal]
    refine ⟨_, rfl, ?_⟩
    generalize hw : (applyStores d (ss.take t2)).active[k] = w
    have hw' : (applyStores d (ss.take t2)).active[k]? = some w := by
      rw [List.getElem?_eq_getElem hal, hw]
    rcases read_active _ _ _ _ hw' with h' | h'
    · by_cases h0 : w < 0
      · exact Or.inl h0
      · exact Or.inr (Or.inl (mem_activeMarks.2 ⟨by omega, k, h'⟩))
    · rcases hs.2 _ _ (List.mem_of_mem_take h') with h'' | h''
      · exact Or.inl h''
      · exact Or.inr (Or.inr h'')

theorem stages_head (cs : List Cmd) : ∀ d : Mag, d ∈ stages d cs := by
  induction cs with
  | nil => intro d; simp [stages]
  | cons c cs ih =>
    intro d
    unfold stages
    split <;> first | simp | exact ih d

theorem historyStores_spec (cs : List Cmd) : ∀ {d d' : Mag}, MagInv d → runCmds d cs = .ok d' →
    ∃ ss, historyStores d cs = .ok ss ∧ applyStores d ss = d' ∧
      SafeStores d.N (fun v => ∃ e ∈ stages d cs, v ∈ activeMarks e.active) ss := by
  induction cs with
  | nil =>
    intro d d' hd h
    injection h with h
    exact ⟨[], rfl, h, safe_nil _ _⟩
  | cons c cs ih =>
    intro d d' hd h
    obtain ⟨hdie, hok⟩ := cmdStores_spec hd c
    unfold runCmds at h
    unfold historyStores stages
    rcases runCmd_inv hd c with hc | hc | ⟨d1, hc, hi, _, hN, _⟩
    · rw [hc] at h; simp at h
    · rw [hc] at h
      rw [hdie hc, hc]
      simp only at h ⊢
      obtain ⟨ss, h1, h2, h3⟩ := ih hd h
      have : applyStores d [] = d := rfl
      rw [this, h1]
      exact ⟨ss, rfl, h2, h3⟩
    · rw [hc] at h
      obtain ⟨ss, h1, h2, h3⟩ := hok d1 hc
      rw [h1, hc]
      simp only at h ⊢
      obtain ⟨ss', k1, k2, k3⟩ := ih hi h
      rw [h2, k1]
      refine ⟨ss ++ ss', rfl, by rw [applyStores_append, h2, k2], ?_, ?_⟩
      · intro c v hv
        rcases List.mem_append.1 hv with hv | hv
        · exact h3.1 c v hv
        · have := k3.1 c v hv; rw [hN] at this; exact this
      · intro i v hv
        rcases List.mem_append.1 hv with hv | hv
        · rcases h3.2 i v hv with h' | h'
          · exact Or.inl h'
          · exact Or.inr ⟨d1, List.mem_cons_of_mem _ (stages_head cs d1), h'⟩
        · rcases k3.2 i v hv with h' | ⟨e, he, h'⟩
          · exact Or.inl h'
          · exact Or.inr ⟨e, List.mem_cons_of_mem _ he, h'⟩

end Nfqlb.Maglev
