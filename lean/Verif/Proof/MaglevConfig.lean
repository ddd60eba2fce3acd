import Verif.Proof.MaglevPartial
import Verif.Proof.Prime
import Verif.Spec.MaglevConfig
import Mathlib.Data.Nat.ModEq
import Mathlib.Tactic.Ring
import Mathlib.Algebra.BigOperators.Group.Finset.Piecewise
import Mathlib.Data.List.Perm.Subperm
import Mathlib.Data.List.Nodup
import Mathlib.Algebra.Order.BigOperators.Group.Finset

set_option autoImplicit false

namespace Nfqlb.Maglev

open Spec

/-! ### Permutation rows -/

theorem permRow_isPermutation {M offset skip : Nat} (hp : Nat.Prime M) (hM : M ≤ 65536)
    (ho : offset < M) (hs1 : 1 ≤ skip) (hs : skip < M) : IsPermutationRow M (permRow M offset skip) := by
  have hnw : ∀ j, j < M → u32 (offset + u32 (j * skip)) = offset + j * skip := by
    intro j hj
    have h1 : j * skip ≤ (M - 1) * (M - 1) := Nat.mul_le_mul (by omega) (by omega)
    have h2 : (M - 1) * (M - 1) ≤ 65535 * 65535 := Nat.mul_le_mul (by omega) (by omega)
    unfold u32
    rw [Nat.mod_eq_of_lt (a := j * skip) (by omega), Nat.mod_eq_of_lt (by omega)]
  have hrow : permRow M offset skip = (List.range M).map (fun j => (offset + j * skip) % M) := by
    unfold permRow
    apply List.map_congr_left
    intro j hj
    rw [hnw j (List.mem_range.1 hj)]
  unfold IsPermutationRow
  rw [hrow]
  have hnd : ((List.range M).map (fun j => (offset + j * skip) % M)).Nodup := by
    apply List.Nodup.map_on _ List.nodup_range
    intro x hx y hy hxy
    rw [List.mem_range] at hx hy
    have h1 : offset + x * skip ≡ offset + y * skip [MOD M] := hxy
    have h2 : x * skip ≡ y * skip [MOD M] := Nat.ModEq.add_left_cancel' offset h1
    have hco : Nat.gcd M skip = 1 := by
      have hnd : ¬ M ∣ skip := fun hd => by
        have := Nat.le_of_dvd (by omega) hd; omega
      exact (Nat.Prime.coprime_iff_not_dvd hp).2 hnd
    have h3 : x ≡ y [MOD M] := Nat.ModEq.cancel_right_of_coprime hco h2
    have := h3
    unfold Nat.ModEq at this
    rwa [Nat.mod_eq_of_lt hx, Nat.mod_eq_of_lt hy] at this
  have hsub : ((List.range M).map (fun j => (offset + j * skip) % M)) ⊆ List.range M := by
    intro c hc
    rw [List.mem_map] at hc
    obtain ⟨j, _, rfl⟩ := hc
    exact List.mem_range.2 (Nat.mod_lt _ (by omega))
  exact (List.subperm_of_subset hnd hsub).perm_of_length_le (by simp)

/-- A row that lacks a slot or has a repeated entry cannot cover the table. -/
theorem row_covers_nodup {M : Nat} {row : List Nat} (hl : row.length = M) (hc : ∀ c, c < M → c ∈ row) :
    row.Nodup := by
  have hsub : List.range M ⊆ row := fun c h => hc c (List.mem_range.1 h)
  have := (List.subperm_of_subset List.nodup_range hsub).perm_of_length_le (by simp [hl])
  exact this.nodup_iff.1 List.nodup_range

/-! ### Histories of commands -/

/-- Invariant of the shared table. -/
structure MagInv (d : Mag) : Prop where
  mpos : 0 < d.M
  alen : d.active.length = d.N
  populated : populateLookup d.M d.N d.perm d.active = .ok d.lookup

theorem activateOne_len (a : List Int) (fw : Int) : (activateOne a fw).1.length = a.length := by
  unfold activateOne; split <;> simp

theorem deactivateOne_len (a : List Int) (fw : Int) : (deactivateOne a fw).1.length = a.length := by
  unfold deactivateOne; split <;> simp

theorem activateOne_unchanged (a : List Int) (fw : Int) (h : (activateOne a fw).2 = false) :
    (activateOne a fw).1 = a := by
  unfold activateOne at h ⊢
  split <;> simp_all

theorem deactivateOne_unchanged (a : List Int) (fw : Int) (h : (deactivateOne a fw).2 = false) :
    (deactivateOne a fw).1 = a := by
  unfold deactivateOne at h ⊢
  split <;> simp_all

theorem forEach_len (f : List Int → Int → List Int × Bool) (hf : ∀ a fw, (f a fw).1.length = a.length)
    (fws : List Int) : ∀ a ch, (forEach f a fws ch).1.length = a.length := by
  induction fws with
  | nil => intro a ch; rfl
  | cons x xs ih => intro a ch; unfold forEach; rw [ih, hf]

theorem forEach_flag (f : List Int → Int → List Int × Bool) (fws : List Int) :
    ∀ a, (forEach f a fws true).2 = true := by
  induction fws with
  | nil => intro a; rfl
  | cons x xs ih => intro a; unfold forEach; simpa using ih _

theorem forEach_unchanged (f : List Int → Int → List Int × Bool)
    (hf : ∀ a fw, (f a fw).2 = false → (f a fw).1 = a) (fws : List Int) :
    ∀ a ch, (forEach f a fws ch).2 = false → (forEach f a fws ch).1 = a := by
  induction fws with
  | nil => intro a ch _; rfl
  | cons x xs ih =>
    intro a ch h
    unfold forEach at h ⊢
    simp only at h ⊢
    by_cases hx : (f a x).2 = true
    · rw [hx, Bool.or_true, forEach_flag] at h; simp at h
    · have hx' : (f a x).2 = false := by simpa using hx
      rw [ih _ _ h, hf _ _ hx']

theorem populate_inv {d : Mag} (hM : 0 < d.M) (hl : d.active.length = d.N) :
    populate d = .ub ∨ ∃ l, populate d = .ok { d with lookup := l } ∧ MagInv { d with lookup := l } := by
  rcases populateLookup_res d.perm hM hl with h | ⟨l, h, _⟩
  · left; unfold populate; rw [h]
  · right; refine ⟨l, by unfold populate; rw [h], ⟨hM, hl, h⟩⟩

theorem runCmd_inv {d : Mag} (hd : MagInv d) (c : Cmd) :
    runCmd d c = .ub ∨ runCmd d c = .die ∨
      ∃ d', runCmd d c = .ok d' ∧ MagInv d' ∧ d'.M = d.M ∧ d'.N = d.N ∧ d'.perm = d.perm := by
  have key : ∀ a : List Int, a.length = d.N →
      populate { d with active := a } = .ub ∨
      ∃ d', populate { d with active := a } = .ok d' ∧ MagInv d' ∧ d'.M = d.M ∧ d'.N = d.N ∧ d'.perm = d.perm := by
    intro a ha
    rcases populate_inv (d := { d with active := a }) hd.mpos ha with h | ⟨l, h, hi⟩
    · exact Or.inl h
    · exact Or.inr ⟨_, h, hi, rfl, rfl, rfl⟩
  cases c with
  | activate fws =>
    unfold runCmd
    simp only
    split
    · rcases key (forEach activateOne d.active fws false).1
        (by rw [forEach_len _ activateOne_len]; exact hd.alen) with h | h
      · exact Or.inl h
      · exact Or.inr (Or.inr h)
    · rename_i hch
      rw [forEach_unchanged _ activateOne_unchanged _ _ _ (by simpa using hch)]
      exact Or.inr (Or.inr ⟨d, rfl, hd, rfl, rfl, rfl⟩)
  | deactivate fws =>
    unfold runCmd
    simp only
    split
    · rcases key (forEach deactivateOne d.active fws false).1
        (by rw [forEach_len _ deactivateOne_len]; exact hd.alen) with h | h
      · exact Or.inl h
      · exact Or.inr (Or.inr h)
    · rename_i hch
      rw [forEach_unchanged _ deactivateOne_unchanged _ _ _ (by simpa using hch)]
      exact Or.inr (Or.inr ⟨d, rfl, hd, rfl, rfl, rfl⟩)
  | activateAt i fw =>
    cases fw with
    | none => exact Or.inr (Or.inr ⟨d, rfl, hd, rfl, rfl, rfl⟩)
    | some fw =>
      simp only [runCmd]
      split
      · exact Or.inr (Or.inl rfl)
      · split
        · exact Or.inl rfl
        · split
          · rcases key (d.active.set (cint i).toNat fw) (by simp [hd.alen]) with h | h
            · exact Or.inl h
            · exact Or.inr (Or.inr h)
          · exact Or.inr (Or.inr ⟨d, rfl, hd, rfl, rfl, rfl⟩)
  | deactivateAt i =>
    simp only [runCmd]
    split
    · exact Or.inr (Or.inl rfl)
    · split
      · exact Or.inl rfl
      · split
        · rcases key (d.active.set (cint i).toNat (-1)) (by simp [hd.alen]) with h | h
          · exact Or.inl h
          · exact Or.inr (Or.inr h)
        · exact Or.inr (Or.inr ⟨d, rfl, hd, rfl, rfl, rfl⟩)

theorem runCmds_inv (cs : List Cmd) : ∀ {d d' : Mag}, MagInv d → runCmds d cs = .ok d' →
    MagInv d' ∧ d'.M = d.M ∧ d'.N = d.N ∧ d'.perm = d.perm := by
  induction cs with
  | nil => intro d d' hd h; injection h with h; subst h; exact ⟨hd, rfl, rfl, rfl⟩
  | cons c cs ih =>
    intro d d' hd h
    unfold runCmds at h
    rcases runCmd_inv hd c with hc | hc | ⟨d1, hc, hi, h1, h2, h3⟩
    · rw [hc] at h; simp at h
    · rw [hc] at h; exact ih hd h
    · rw [hc] at h
      obtain ⟨a, b, c, e⟩ := ih hi h
      exact ⟨a, by rw [b, h1], by rw [c, h2], by rw [e, h3]⟩

theorem adjustM_ok (M : Nat) (h32 : M < 2 ^ 32) :
    ∃ p, adjustM M = .ok p ∧ Nat.Prime p ∧ 3 ≤ p ∧ p ≤ 994009 ∧ (3 ≤ M → p ≤ M) ∧ p ≤ max 3 M := by
  have hres : ∃ p, Prime.primeBelow (if M < 3 then 3 else M) = .ok p ∧
      Spec.IsLargestPrimeUpTo (min (if M < 3 then 3 else M) 994009) p := by
    generalize hm : (if M < 3 then 3 else M) = m
    have h2 : 2 ≤ m := by rw [← hm]; split <;> omega
    unfold Prime.primeBelow
    have hmin : (if m ≥ 994009 then 994009 else m) = min m 994009 := by split <;> omega
    simp only [hmin]
    have hle : min m 994009 ≤ 994009 := Nat.min_le_right _ _
    have hge : 2 ≤ min m 994009 := by omega
    generalize min m 994009 = m at hle hge
    rw [if_neg (by omega)]
    by_cases h4 : m < 4
    · rw [if_pos h4]
      refine ⟨m, rfl, ?_, Nat.le_refl m, fun q _ h => h⟩
      have : m = 2 ∨ m = 3 := by omega
      rcases this with rfl | rfl
      · exact Nat.prime_two
      · exact Nat.prime_three
    · rw [if_neg h4]
      by_cases he : m % 2 = 0
      · rw [if_pos he]
        obtain ⟨p, hp, hpp, hle', hmax⟩ := Prime.descend_correct (m - 1) (m - 1) (Nat.le_refl _)
          (by omega) (by omega) (by omega)
        refine ⟨p, hp, hpp, by omega, ?_⟩
        intro q hq hqm
        by_cases h : q = m
        · subst h; rcases hq.eq_two_or_odd with h' | h' <;> omega
        · exact hmax q hq (by omega)
      · rw [if_neg he]
        exact Prime.descend_correct m m (Nat.le_refl _) (by omega) (by omega) (by omega)
  obtain ⟨p, hp, hpp, hle, hmax⟩ := hres
  refine ⟨p, hp, hpp, hmax 3 Nat.prime_three (by split <;> omega), by omega, ?_, ?_⟩
  · intro h3; split at hle <;> omega
  · split at hle <;> omega

theorem adjustM_idem {p : Nat} (hp : Nat.Prime p) (h3 : 3 ≤ p) (hle : p ≤ 994009) : adjustM p = .ok p := by
  obtain ⟨q, hq, hqp, _, _, hqle, _⟩ := adjustM_ok p (by omega)
  have hq' := hq
  -- q is the largest prime ≤ p, hence p itself
  have : p ≤ q := by
    unfold adjustM at hq
    rw [if_neg (by omega)] at hq
    unfold Prime.primeBelow at hq
    have hmin : (if p ≥ 994009 then 994009 else p) = p := by split <;> omega
    simp only [hmin] at hq
    rw [if_neg (by omega)] at hq
    by_cases h4 : p < 4
    · rw [if_pos h4] at hq; injection hq with hq; omega
    · rw [if_neg h4] at hq
      have hodd : ¬ p % 2 = 0 := by
        rcases hp.eq_two_or_odd with h | h <;> omega
      rw [if_neg hodd] at hq
      obtain ⟨r, hr, _, _, hmax⟩ := Prime.descend_correct p p (Nat.le_refl _) (by omega) (by omega) (by omega)
      rw [hr] at hq; injection hq with hq; subst hq
      exact hmax p hp (Nat.le_refl _)
  have : p = q := by have := hqle h3; omega
  rw [this]; rw [this] at hq'; exact hq'

theorem init_inv {M N : Nat} {rnd : Nat → Nat} {d : Mag} (h32 : M < 2 ^ 32) (h : init M N rnd = .ok d) :
    MagInv d ∧ d.N = N ∧ adjustM M = .ok d.M ∧
      d.perm = (List.range N).map (randRow d.M rnd) ∧ d.active = List.replicate N (-1) := by
  obtain ⟨p, hp, hpp, h3, _⟩ := adjustM_ok M h32
  unfold init at h
  rw [hp] at h
  simp only at h
  have hpi := populate_inv
    (d := ⟨p, N, List.replicate p 0, (List.range N).map (randRow p rnd), List.replicate N (-1)⟩)
    (by show 0 < p; omega) (by simp)
  rcases hpi with h' | ⟨l, h', hi⟩
  · rw [h'] at h; simp at h
  · rw [h'] at h; injection h with h; subst h
    exact ⟨hi, rfl, hp, rfl, rfl⟩

/-- `init` never fails: no target is active. -/
theorem init_ok (M N : Nat) (rnd : Nat → Nat) (h32 : M < 2 ^ 32) : ∃ d, init M N rnd = .ok d := by
  obtain ⟨p, hp, hpp, h3, _⟩ := adjustM_ok M h32
  unfold init
  rw [hp]
  simp only [populate]
  have hz : nActive (List.replicate N (-1 : Int)) = 0 := by
    unfold nActive
    rw [List.length_eq_zero_iff, List.filter_eq_nil_iff]
    intro a ha
    rw [List.eq_of_mem_replicate ha]; decide
  unfold populateLookup
  simp only [hz, if_true]
  exact ⟨_, rfl⟩

theorem cmdInit_eq {M N : Nat} {rnd : Nat → Nat} {d : Mag} (h32 : M < 2 ^ 32) (h : cmdInit M N rnd = .ok d) :
    ∃ p, adjustM M = .ok p ∧ Nat.Prime p ∧ 3 ≤ p ∧ p ≤ 994009 ∧ N ≤ p ∧ init p N rnd = .ok d ∧ d.M = p := by
  obtain ⟨p, hp, hpp, h3, hle, _⟩ := adjustM_ok M h32
  unfold cmdInit at h
  rw [hp] at h
  simp only at h
  split at h
  · simp at h
  · refine ⟨p, hp, hpp, h3, hle, by omega, h, ?_⟩
    obtain ⟨_, _, h5, _⟩ := init_inv (by omega) h
    rw [adjustM_idem hpp h3 hle] at h5
    injection h5 with h5; exact h5.symm

/-- The rows made by `init` are permutations when M does not exceed 65536. -/
theorem init_rows {p N : Nat} {rnd : Nat → Nat} (hp : Nat.Prime p) (h3 : 3 ≤ p) (hle : p ≤ 65536) (i : Nat) (hi : i < N) :
    ∃ row, ((List.range N).map (randRow p rnd))[i]? = some row ∧ IsPermutationRow p row := by
  refine ⟨randRow p rnd i, by simp [hi], ?_⟩
  unfold randRow
  refine permRow_isPermutation hp hle (Nat.mod_lt _ (by omega)) (by omega) ?_
  have := Nat.mod_lt (rnd (2 * i + 1)) (show 0 < p - 1 by omega)
  omega

/-- With permutation rows no command has undefined behaviour. -/
theorem runCmd_no_ub {d : Mag} (hd : MagInv d)
    (hrows : ∀ i, i < d.N → ∃ row, d.perm[i]? = some row ∧ IsPermutationRow d.M row) (c : Cmd) :
    runCmd d c ≠ .ub := by
  have key : ∀ a : List Int, a.length = d.N → populate { d with active := a } ≠ .ub := by
    intro a ha h
    obtain ⟨l, hl, _⟩ := populateLookup_ok (active := a) hd.mpos ⟨hrows, ha⟩
    unfold populate at h
    simp only [hl] at h
    simp at h
  have hidx' : ∀ x : Int, ¬ indexTooLarge (cint x) d.N = true → d.active[(cint x).toNat]? ≠ none := by
    intro x hi hnone
    have hge := List.getElem?_eq_none_iff.1 hnone
    rw [hd.alen] at hge
    unfold indexTooLarge at hi
    have hr : -2147483648 ≤ cint x ∧ cint x < 2147483648 := by unfold cint; omega
    generalize cint x = i at *
    simp only [decide_eq_true_eq] at hi
    omega
  cases c with
  | activate fws =>
    unfold runCmd; simp only
    split
    · exact key _ (by rw [forEach_len _ activateOne_len]; exact hd.alen)
    · simp
  | deactivate fws =>
    unfold runCmd; simp only
    split
    · exact key _ (by rw [forEach_len _ deactivateOne_len]; exact hd.alen)
    · simp
  | activateAt i fw =>
    cases fw with
    | none => simp [runCmd]
    | some fw =>
      simp only [runCmd]
      split
      · simp
      · rename_i hi
        split
        · rename_i hn; exact absurd hn (hidx' i hi)
        · split
          · exact key _ (by simp [hd.alen])
          · simp
  | deactivateAt i =>
    simp only [runCmd]
    split
    · simp
    · rename_i hi
      split
      · rename_i hn; exact absurd hn (hidx' i hi)
      · split
        · exact key _ (by simp [hd.alen])
        · simp

theorem runCmds_ok {d : Mag} (cs : List Cmd) : MagInv d →
    (∀ i, i < d.N → ∃ row, d.perm[i]? = some row ∧ IsPermutationRow d.M row) →
    ∃ d', runCmds d cs = .ok d' := by
  induction cs generalizing d with
  | nil => intro _ _; exact ⟨d, rfl⟩
  | cons c cs ih =>
    intro hd hrows
    unfold runCmds
    rcases runCmd_inv hd c with hc | hc | ⟨d1, hc, hi, h1, h2, h3⟩
    · exact absurd hc (runCmd_no_ub hd hrows c)
    · rw [hc]; exact ih hd hrows
    · rw [hc]; exact ih hi (by rw [h1, h2, h3]; exact hrows)

theorem MagInv.good {d : Mag} (hd : MagInv d) : GoodTable d.M d.lookup d.active ∧ Balanced d.lookup d.active := by
  rcases populateLookup_res d.perm hd.mpos hd.alen with h | ⟨l, h, h1, h2, _⟩
  · rw [hd.populated] at h; simp at h
  · rw [hd.populated] at h; injection h with h; subst h; exact ⟨h1, h2⟩

/-! ### The table depends on the active indices only -/

theorem pass_congr {M : Nat} {perm : List (List Nat)} {a b : List Int} (hl : a.length = b.length)
    (h : ∀ i, ActiveAt a i ↔ ActiveAt b i) (is : List Nat) :
    ∀ s, pass M perm a is s = pass M perm b is s := by
  induction is with
  | nil => intro s; rfl
  | cons i is ih =>
    intro s
    unfold pass
    rcases Nat.lt_or_ge i a.length with hi | hi
    · have hib : i < b.length := by omega
      rw [List.getElem?_eq_getElem hi, List.getElem?_eq_getElem hib]
      simp only
      have hiff : a[i] < 0 ↔ b[i] < 0 := by
        have := h i
        have ha : ActiveAt a i ↔ 0 ≤ a[i] := by
          constructor
          · rintro ⟨fw, h1, h2⟩; rw [List.getElem?_eq_getElem hi] at h1; injection h1 with h1; omega
          · intro h0; exact ⟨a[i], List.getElem?_eq_getElem hi, h0⟩
        have hb : ActiveAt b i ↔ 0 ≤ b[i] := by
          constructor
          · rintro ⟨fw, h1, h2⟩; rw [List.getElem?_eq_getElem hib] at h1; injection h1 with h1; omega
          · intro h0; exact ⟨b[i], List.getElem?_eq_getElem hib, h0⟩
        rw [ha, hb] at this; omega
      by_cases hn : a[i] < 0
      · rw [if_pos hn, if_pos (hiff.1 hn)]; exact ih s
      · rw [if_neg hn, if_neg (fun hh => hn (hiff.2 hh))]
        split <;> first | rfl | (split <;> first | rfl | exact ih _)
    · rw [List.getElem?_eq_none hi, List.getElem?_eq_none (by omega)]

theorem populateLookup_congr {M N : Nat} {perm : List (List Nat)} {a b : List Int} (hl : a.length = b.length)
    (h : ∀ i, ActiveAt a i ↔ ActiveAt b i) : populateLookup M N perm a = populateLookup M N perm b := by
  have hp : ∀ fuel s, passes M N perm a fuel s = passes M N perm b fuel s := by
    intro fuel
    induction fuel with
    | zero => intro s; rfl
    | succ fuel ih =>
      intro s
      unfold passes
      rw [pass_congr hl h]
      split <;> first | rfl | exact ih _
  have hz : nActive a = 0 ↔ nActive b = 0 := by
    have h1 := nActive_pos_iff a
    have h2 := nActive_pos_iff b
    have h3 : (∃ k, ActiveAt a k) ↔ ∃ k, ActiveAt b k :=
      ⟨fun ⟨k, hk⟩ => ⟨k, (h k).1 hk⟩, fun ⟨k, hk⟩ => ⟨k, (h k).2 hk⟩⟩
    constructor
    · intro hz; by_contra hc; exact (h1.2 (h3.2 (h2.1 hc))) hz
    · intro hz; by_contra hc; exact (h2.2 (h3.1 (h1.1 hc))) hz
  unfold populateLookup
  simp only [hp]
  by_cases hh : nActive a = 0
  · simp [hh, hz.1 hh]
  · have hb : ¬ nActive b = 0 := fun h' => hh (hz.2 h')
    simp [hh, hb]

/-! ### Even distribution, exact numbers -/

theorem sum_slots (n : Nat) (l : List Int) (hv : ∀ v ∈ l, ∃ k : Nat, v = (k : Int) ∧ k < n) :
    (Finset.range n).sum (slots l) = l.length := by
  induction l with
  | nil => simp [slots]
  | cons a l ih =>
    obtain ⟨k, hk, hkn⟩ := hv a (by simp)
    have : ∀ i, slots (a :: l) i = slots l i + if i = k then 1 else 0 := by
      intro i
      unfold slots
      rw [List.count_cons, hk]
      by_cases h : i = k
      · subst h; simp
      · have : ¬ ((k : Int) = (i : Int)) := by omega
        simp [h, this]
    rw [Finset.sum_congr rfl (fun i _ => this i), Finset.sum_add_distrib, ih (fun v h => hv v (by simp [h]))]
    rw [Finset.sum_ite_eq' (Finset.range n) k (fun _ => 1)]
    simp [hkn]

theorem mem_activeIdx {active : List Int} {i : Nat} : i ∈ activeIdx active ↔ ActiveAt active i := by
  unfold activeIdx
  rw [Finset.mem_filter, Finset.mem_range]
  constructor
  · rintro ⟨h1, h2⟩
    refine ⟨active[i], List.getElem?_eq_getElem h1, ?_⟩
    simpa [h1] using h2
  · intro h
    have h1 := activeAt_lt h
    obtain ⟨fw, hfw, h0⟩ := h
    refine ⟨h1, ?_⟩
    rw [List.getElem?_eq_getElem h1] at hfw; injection hfw with hfw
    simp [h1, hfw, h0]

theorem sum_slots_active {M : Nat} {lookup active : List Int} (h : FullyAssigned M lookup active) :
    (activeIdx active).sum (slots lookup) = M := by
  obtain ⟨hl, hf⟩ := h
  have hval : ∀ v ∈ lookup, ∃ k : Nat, v = (k : Int) ∧ ActiveAt active k := by
    intro v hv
    obtain ⟨c, hc⟩ := List.getElem?_of_mem hv
    have hcM : c < M := by
      rcases Nat.lt_or_ge c lookup.length with h' | h'
      · omega
      · rw [List.getElem?_eq_none h'] at hc; simp at hc
    obtain ⟨i, h1, h2⟩ := hf c hcM
    rw [h1] at hc; injection hc with hc
    exact ⟨i, hc.symm, h2⟩
  have h1 := sum_slots active.length lookup (fun v hv => by
    obtain ⟨k, hk, ha⟩ := hval v hv; exact ⟨k, hk, activeAt_lt ha⟩)
  rw [hl] at h1
  rw [← h1]
  apply Finset.sum_subset
  · intro i hi
    rw [mem_activeIdx] at hi
    exact Finset.mem_range.2 (activeAt_lt hi)
  · intro i _ hni
    rw [mem_activeIdx] at hni
    unfold slots
    rw [List.count_eq_zero]
    intro hm
    obtain ⟨k, hk, ha⟩ := hval _ hm
    have : k = i := by omega
    subst this; exact hni ha

theorem slots_exact {M : Nat} {lookup active : List Int} (h : FullyAssigned M lookup active)
    (hb : Balanced lookup active) {i : Nat} (hi : ActiveAt active i) :
    slots lookup i = M / (activeIdx active).card ∨ slots lookup i = (M + (activeIdx active).card - 1) / (activeIdx active).card := by
  have hsum := sum_slots_active h
  have hmem : i ∈ activeIdx active := mem_activeIdx.2 hi
  rw [← Finset.add_sum_erase _ _ hmem] at hsum
  have hcard : ((activeIdx active).erase i).card + 1 = (activeIdx active).card := Finset.card_erase_add_one hmem
  have hup : ((activeIdx active).erase i).sum (slots lookup) ≤ ((activeIdx active).erase i).card * (slots lookup i + 1) := by
    have := Finset.sum_le_card_nsmul ((activeIdx active).erase i) (slots lookup) (slots lookup i + 1) (by
      intro j hj
      exact hb j i (mem_activeIdx.1 (Finset.mem_of_mem_erase hj)) hi)
    simpa using this
  have hlo : ((activeIdx active).erase i).card * (slots lookup i) ≤ ((activeIdx active).erase i).sum (slots lookup) + ((activeIdx active).erase i).card := by
    have hh : ((activeIdx active).erase i).sum (fun _ => slots lookup i) ≤ ((activeIdx active).erase i).sum (fun j => slots lookup j + 1) := by
      apply Finset.sum_le_sum
      intro j hj
      exact hb i j hi (mem_activeIdx.1 (Finset.mem_of_mem_erase hj))
    rw [Finset.sum_add_distrib] at hh
    simpa using hh
  generalize ((activeIdx active).erase i).card = m at *
  generalize ((activeIdx active).erase i).sum (slots lookup) = S at *
  rw [← hcard]
  generalize slots lookup i = a at *
  have e1 : m * (a + 1) = m * a + m := by ring
  rw [e1] at hup
  -- (m+1)*a ≤ M + m and M ≤ (m+1)*a + m
  have b1 : (m + 1) * a ≤ M + m := by have : (m + 1) * a = m * a + a := by ring
                                      omega
  have b2 : M ≤ (m + 1) * a + m := by have : (m + 1) * a = m * a + a := by ring
                                      omega
  have c1 : a * (m + 1) = (m + 1) * a := Nat.mul_comm _ _
  have c2 : (a + 1) * (m + 1) = (m + 1) * a + (m + 1) := by ring
  by_cases hle : (m + 1) * a ≤ M
  · left
    symm
    apply Nat.div_eq_of_lt_le <;> omega
  · right
    symm
    apply Nat.div_eq_of_lt_le <;> omega

end Nfqlb.Maglev
